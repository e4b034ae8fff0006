import Verif.Model.Aes128
import Verif.Lemmas.Common
import Mathlib.Data.Fintype.EquivFin
import Mathlib.Data.Fintype.Vector

/-! # AES-128 in CBC mode is a `Cipher` -/

namespace Bitcoinx.Aes128

theorem forall_byte {p : UInt8 → Prop} [DecidablePred p] (h : (List.range 256).all fun n => p (UInt8.ofNat n)) (b : UInt8) :
    p b := by
  have hb := List.all_eq_true.mp h b.toNat (List.mem_range.mpr b.toNat_lt)
  simpa using hb

theorem invSub_sub (b : UInt8) : invSub (sub b) = b := forall_byte (p := fun b => invSub (sub b) = b) (by decide +kernel) b

theorem shiftRows_length (s : Bytes) : (shiftRows s).length = s.length := by
  unfold shiftRows; split <;> rfl

theorem invShiftRows_shiftRows (s : Bytes) (h : s.length = 16) : invShiftRows (shiftRows s) = s := by
  match s, h with
  | [a0, a1, a2, a3, b0, b1, b2, b3, c0, c1, c2, c3, d0, d1, d2, d3], _ => rfl

theorem high_bit (b : UInt8) : b >>> 7 = 0 ∨ b >>> 7 = 1 :=
  forall_byte (p := fun b => b >>> 7 = 0 ∨ b >>> 7 = 1) (by decide +kernel) b

theorem xor_left_comm (a b c : UInt8) : a ^^^ (b ^^^ c) = b ^^^ (a ^^^ c) := by
  rw [← UInt8.xor_assoc, UInt8.xor_comm a b, UInt8.xor_assoc]

theorem xtime_xor (a b : UInt8) : xtime (a ^^^ b) = xtime a ^^^ xtime b := by
  have h1 : (a ^^^ b) <<< 1 = a <<< 1 ^^^ b <<< 1 := UInt8.shiftLeft_xor
  have h7 : (a ^^^ b) >>> 7 = a >>> 7 ^^^ b >>> 7 := UInt8.shiftRight_xor
  have hm : (a >>> 7 ^^^ b >>> 7) * (0x1b : UInt8) = ((a >>> 7) * (0x1b : UInt8)) ^^^ ((b >>> 7) * (0x1b : UInt8)) := by
    rcases high_bit a with ha | ha <;> rcases high_bit b with hb | hb <;> rw [ha, hb] <;> rfl
  rw [xtime, xtime, xtime, h1, h7, hm]
  simp only [UInt8.xor_assoc, UInt8.xor_comm, xor_left_comm]

theorem xor_cancel (a b : UInt8) : a ^^^ (a ^^^ b) = b := by
  rw [← UInt8.xor_assoc, UInt8.xor_self, UInt8.zero_xor]

set_option maxHeartbeats 2000000 in
theorem invMixColumns_mixColumns (s : Bytes) : invMixColumns (mixColumns s) = s := by
  fun_induction mixColumns s with
  | case1 a b c d s ih =>
    rw [invMixColumns, ih]
    simp only [mul9, mul11, mul13, mul14, xtime_xor]
    simp only [List.cons.injEq, and_true]
    generalize xtime (xtime (xtime (xtime a))) = a4
    generalize xtime (xtime (xtime (xtime b))) = b4
    generalize xtime (xtime (xtime (xtime c))) = c4
    generalize xtime (xtime (xtime (xtime d))) = d4
    generalize xtime (xtime (xtime a)) = a3
    generalize xtime (xtime (xtime b)) = b3
    generalize xtime (xtime (xtime c)) = c3
    generalize xtime (xtime (xtime d)) = d3
    generalize xtime (xtime a) = a2
    generalize xtime (xtime b) = b2
    generalize xtime (xtime c) = c2
    generalize xtime (xtime d) = d2
    generalize xtime a = a1
    generalize xtime b = b1
    generalize xtime c = c1
    generalize xtime d = d1
    refine ⟨?_, ?_, ?_, ?_⟩ <;>
      simp only [UInt8.xor_assoc, UInt8.xor_comm, xor_left_comm, UInt8.xor_self, xor_cancel, UInt8.xor_zero]
  | case2 s h =>
    unfold invMixColumns
    split
    · exact absurd rfl (h _ _ _ _ _)
    · rfl

theorem mixColumns_length (s : Bytes) : (mixColumns s).length = s.length := by
  fun_induction mixColumns s with
  | case1 a b c d s ih => simp [ih]
  | case2 s h => rfl

theorem add_length (key s : Bytes) (h : key.length = s.length) : (add key s).length = s.length := by
  simp [add, h]

theorem add_add (key s : Bytes) (h : key.length = s.length) : add key (add key s) = s := by
  induction key generalizing s with
  | nil => cases s with | nil => rfl | cons _ _ => simp at h
  | cons k key ih =>
    cases s with
    | nil => simp at h
    | cons b s =>
      have := ih s (by simpa using h)
      simp only [add, List.zipWith_cons_cons] at this ⊢
      rw [this, xor_cancel]

theorem nextKey_length (rcon : UInt8) (key : Bytes) : (nextKey rcon key).length = key.length := by
  unfold nextKey; split <;> rfl

theorem expand_length (rcons : List UInt8) (key : Bytes) (h : key.length = 16) :
    ∀ k ∈ expand key rcons, k.length = 16 := by
  induction rcons generalizing key with
  | nil => intro k hk; cases hk
  | cons r rcons ih =>
    have hn : (nextKey r key).length = 16 := by rw [nextKey_length, h]
    intro k hk
    rcases List.mem_cons.mp hk with rfl | hk
    · exact hn
    · exact ih _ hn k hk

theorem rounds_length (keys : List Bytes) (s : Bytes) (hs : s.length = 16) (hk : ∀ k ∈ keys, k.length = 16) :
    (rounds s keys).length = 16 := by
  fun_induction rounds s keys with
  | case1 s => exact hs
  | case2 s key =>
    have := hk key (by simp)
    rw [add_length _ _ (by rw [shiftRows_length, List.length_map, this, hs]), shiftRows_length, List.length_map, hs]
  | case3 s key keys _ ih =>
    have := hk key (by simp)
    refine ih ?_ (fun k hm => hk k (by simp [hm]))
    rw [add_length _ _ (by rw [mixColumns_length, shiftRows_length, List.length_map, this, hs]), mixColumns_length,
      shiftRows_length, List.length_map, hs]

theorem map_invSub_sub (s : Bytes) : (s.map sub).map invSub = s := by
  rw [List.map_map, List.map_congr_left (f := invSub ∘ sub) (g := id) (fun b _ => invSub_sub b), List.map_id]

theorem invRounds_rounds (keys : List Bytes) (s : Bytes) (hs : s.length = 16) (hk : ∀ k ∈ keys, k.length = 16) :
    invRounds (rounds s keys) keys = s := by
  fun_induction rounds s keys with
  | case1 s => rfl
  | case2 s key =>
    have := hk key (by simp)
    rw [invRounds, add_add _ _ (by rw [shiftRows_length, List.length_map, this, hs]),
      invShiftRows_shiftRows _ (by rw [List.length_map, hs]), map_invSub_sub]
  | case3 s key keys hne ih =>
    have := hk key (by simp)
    have hl : key.length = (mixColumns (shiftRows (s.map sub))).length := by
      rw [mixColumns_length, shiftRows_length, List.length_map, this, hs]
    cases keys with
    | nil => exact absurd rfl hne
    | cons k' keys' =>
      rw [invRounds, ih (by rw [add_length _ _ hl, ← hl, this]) (fun k hm => hk k (by simp [hm])), add_add _ _ hl,
        invMixColumns_mixColumns, invShiftRows_shiftRows _ (by rw [List.length_map, hs]), map_invSub_sub]
      simp

theorem encryptBlock_length (key block : Bytes) (hk : key.length = 16) (hb : block.length = 16) :
    (encryptBlock key block).length = 16 :=
  rounds_length _ _ (by rw [add_length _ _ (by rw [hk, hb]), hb]) (expand_length _ _ hk)

theorem decryptBlock_encryptBlock (key block : Bytes) (hk : key.length = 16) (hb : block.length = 16) :
    decryptBlock key (encryptBlock key block) = block := by
  rw [decryptBlock, encryptBlock, invRounds_rounds _ _ (by rw [add_length _ _ (by rw [hk, hb]), hb])
    (expand_length _ _ hk), add_add _ _ (by rw [hk, hb])]

theorem cbcEncrypt_length (key : Bytes) (hk : key.length = 16) (n : Nat) (iv data : Bytes) (hi : iv.length = 16)
    (hd : data.length = 16 * n) : (cbcEncrypt key n iv data).length = data.length := by
  induction n generalizing iv data with
  | zero => simp only [cbcEncrypt, List.length_nil]; omega
  | succ n ih =>
    have ht : (data.take 16).length = 16 := by rw [List.length_take]; omega
    have hb := encryptBlock_length key (add iv (data.take 16)) hk (by rw [add_length _ _ (by rw [hi, ht]), ht])
    have hr : (data.drop 16).length = 16 * n := by rw [List.length_drop]; omega
    simp only [cbcEncrypt]
    rw [List.length_append, hb, ih _ _ hb hr, List.length_drop]
    omega

theorem cbcDecrypt_cbcEncrypt (key : Bytes) (hk : key.length = 16) (n : Nat) (iv data : Bytes) (hi : iv.length = 16)
    (hd : data.length = 16 * n) : cbcDecrypt key n iv (cbcEncrypt key n iv data) = data := by
  induction n generalizing iv data with
  | zero =>
    have : data = [] := List.eq_nil_of_length_eq_zero (by omega)
    rw [this]; rfl
  | succ n ih =>
    have ht : (data.take 16).length = 16 := by rw [List.length_take]; omega
    have hx : (add iv (data.take 16)).length = 16 := by rw [add_length _ _ (by rw [hi, ht]), ht]
    have hb := encryptBlock_length key (add iv (data.take 16)) hk hx
    have hr : (data.drop 16).length = 16 * n := by rw [List.length_drop]; omega
    simp only [cbcEncrypt, cbcDecrypt]
    rw [List.take_left' hb, List.drop_left' hb, decryptBlock_encryptBlock _ _ hk hx, add_add _ _ (by rw [hi, ht]),
      ih _ _ hb hr, List.take_append_drop]

/-- AES-128 in CBC mode; decryption refuses what is not a whole number of blocks, as `Cryptodome` does. -/
def aes128 : Cipher where
  encrypt key iv data := cbcEncrypt key (data.length / 16) iv data
  decrypt key iv data := if data.length % 16 = 0 then .ok (cbcDecrypt key (data.length / 16) iv data) else .error .valueError
  encrypt_length key iv data hk hi hd := cbcEncrypt_length key hk _ iv data hi (by omega)
  decrypt_encrypt key iv data hk hi hd := by
    have h := cbcEncrypt_length key hk (data.length / 16) iv data hi (by omega)
    rw [h, if_pos hd, cbcDecrypt_cbcEncrypt key hk _ iv data hi (by omega)]

/-- The blocks are finitely many, and those encrypted are different: every block is one of them. -/
theorem exists_encryptBlock (key block : Bytes) (hk : key.length = 16) (hb : block.length = 16) :
    ∃ v : Bytes, v.length = 16 ∧ encryptBlock key v = block := by
  let f : List.Vector UInt8 16 → List.Vector UInt8 16 :=
    fun v => ⟨encryptBlock key v.1, encryptBlock_length key v.1 hk v.2⟩
  have hinj : Function.Injective f := by
    intro a b h
    have h1 : encryptBlock key a.1 = encryptBlock key b.1 := congrArg Subtype.val h
    have h2 := congrArg (decryptBlock key) h1
    rw [decryptBlock_encryptBlock _ _ hk a.2, decryptBlock_encryptBlock _ _ hk b.2] at h2
    exact Subtype.ext h2
  haveI : Finite UInt8 := Finite.of_injective (fun b : UInt8 => (⟨b.toNat, b.toNat_lt⟩ : Fin 256))
    (fun a b h => UInt8.toNat_inj.1 (congrArg Fin.val h))
  haveI : Fintype UInt8 := Fintype.ofFinite _
  obtain ⟨v, hv⟩ := (Finite.injective_iff_surjective.1 hinj) ⟨block, hb⟩
  exact ⟨v.1, v.2, congrArg Subtype.val hv⟩

theorem encryptBlock_decryptBlock (key block : Bytes) (hk : key.length = 16) (hb : block.length = 16) :
    encryptBlock key (decryptBlock key block) = block := by
  obtain ⟨v, hv, rfl⟩ := exists_encryptBlock key block hk hb
  rw [decryptBlock_encryptBlock _ _ hk hv]

theorem decryptBlock_length (key block : Bytes) (hk : key.length = 16) (hb : block.length = 16) :
    (decryptBlock key block).length = 16 := by
  obtain ⟨v, hv, rfl⟩ := exists_encryptBlock key block hk hb
  rw [decryptBlock_encryptBlock _ _ hk hv, hv]

theorem cbcDecrypt_length (key : Bytes) (hk : key.length = 16) (n : Nat) (iv data : Bytes) (hi : iv.length = 16)
    (hd : data.length = 16 * n) : (cbcDecrypt key n iv data).length = data.length := by
  induction n generalizing iv data with
  | zero => simp only [cbcDecrypt, List.length_nil]; omega
  | succ n ih =>
    have ht : (data.take 16).length = 16 := by rw [List.length_take]; omega
    have hb := decryptBlock_length key (data.take 16) hk ht
    have hr : (data.drop 16).length = 16 * n := by rw [List.length_drop]; omega
    simp only [cbcDecrypt]
    rw [List.length_append, add_length _ _ (by rw [hi, hb]), hb, ih _ _ ht hr, List.length_drop]
    omega

theorem cbcEncrypt_cbcDecrypt (key : Bytes) (hk : key.length = 16) (n : Nat) (iv data : Bytes) (hi : iv.length = 16)
    (hd : data.length = 16 * n) : cbcEncrypt key n iv (cbcDecrypt key n iv data) = data := by
  induction n generalizing iv data with
  | zero =>
    have : data = [] := List.eq_nil_of_length_eq_zero (by omega)
    rw [this]; rfl
  | succ n ih =>
    have ht : (data.take 16).length = 16 := by rw [List.length_take]; omega
    have hb := decryptBlock_length key (data.take 16) hk ht
    have hx : (add iv (decryptBlock key (data.take 16))).length = 16 := by rw [add_length _ _ (by rw [hi, hb]), hb]
    have hr : (data.drop 16).length = 16 * n := by rw [List.length_drop]; omega
    simp only [cbcEncrypt, cbcDecrypt]
    rw [List.take_left' hx, List.drop_left' hx, add_add _ _ (by rw [hi, hb]), encryptBlock_decryptBlock _ _ hk ht,
      ih _ _ ht hr, List.take_append_drop]

/-- What AES decrypts to is encrypted to what was decrypted. -/
theorem aes128_exact (key iv ct pt : Bytes) (hk : key.length = 16) (hi : iv.length = 16)
    (h : aes128.decrypt key iv ct = .ok pt) : aes128.encrypt key iv pt = ct := by
  simp only [aes128] at h ⊢
  split at h
  · next hm =>
    have h := Except.ok.inj h
    subst h
    rw [cbcDecrypt_length key hk _ iv ct hi (by omega), cbcEncrypt_cbcDecrypt key hk _ iv ct hi (by omega)]
  · cases h

end Bitcoinx.Aes128
