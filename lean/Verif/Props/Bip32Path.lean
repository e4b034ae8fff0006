import Verif.Props.Bip32Key
import Verif.Lemmas.Asm

/-! # Properties of BIP32 paths: depth, `child_safe`, chain strings -/

namespace Bitcoinx
open Spec

/-! ## C69: `child_safe` -/

theorem BIP32PrivateKey.child_safe_loop_spec (H : Hashes) (L : Secp) (k : BIP32PrivateKey) (h : XprvValid k)
    (B : Int) (hB : B = 2 ^ 31 ∨ B = 2 ^ 32) (fuel : Nat) (n : Int) (h0 : B - 2 ^ 31 ≤ n) (h1 : n < B) (hf : B - n ≤ fuel) :
    (∀ c, k.child_safe_loop H L fuel n = .ok c ↔ ∃ m, n ≤ m ∧ m < B ∧ k.child H L m = .ok c ∧
      ∀ j, n ≤ j → j < m → k.child H L j = .error .valueError) ∧
    (∀ e, k.child_safe_loop H L fuel n = .error e → e = .valueError) := by
  induction fuel generalizing n with
  | zero => omega
  | succ fuel ih =>
    rw [BIP32PrivateKey.child_safe_loop]
    cases hc : k.child H L n with
    | ok c =>
      dsimp only
      refine ⟨fun c' => ⟨fun e => ⟨n, le_refl n, h1, by rw [hc]; exact e, fun j a b => by omega⟩, ?_⟩, (by intro e he; cases he)⟩
      rintro ⟨m, m1, m2, m3, m4⟩
      by_cases hm : m = n
      · rw [hm, hc] at m3; exact m3
      · have := m4 n (le_refl n) (by omega)
        rw [hc] at this; cases this
    | error e =>
      obtain rfl := (C64_private H L k h n).2 e hc
      have r : 0 ≤ n ∧ n < 2 ^ 32 := by omega
      dsimp only
      rw [if_pos (show Err.isValueError .valueError = true from rfl), if_neg (not_not.2 r)]
      by_cases hb : (n + 1) % HARDENED = 0
      · rw [if_pos hb]
        have hb' : n + 1 = B := by rw [HARDENED] at hb; omega
        refine ⟨fun c => ⟨(by intro e; cases e), ?_⟩, (by intro e he; cases he; rfl)⟩
        rintro ⟨m, m1, m2, m3, m4⟩
        obtain rfl : m = n := by omega
        rw [hc] at m3; cases m3
      · rw [if_neg hb]
        have hb' : n + 1 ≠ B := by rw [HARDENED] at hb; omega
        obtain ⟨i1, i2⟩ := ih (n + 1) (by omega) (by omega) (by omega)
        refine ⟨fun c => ?_, i2⟩
        rw [i1 c]
        constructor
        · rintro ⟨m, m1, m2, m3, m4⟩
          refine ⟨m, by omega, m2, m3, fun j a b => ?_⟩
          by_cases hj : j = n
          · rw [hj, hc]
          · exact m4 j (by omega) b
        · rintro ⟨m, m1, m2, m3, m4⟩
          have : m ≠ n := by rintro rfl; rw [hc] at m3; cases m3
          exact ⟨m, by omega, m2, m3, fun j a b => m4 j (by omega) b⟩

/-- `child_safe` of a private key returns the first valid child from the index given, in the same half of the
indexes; if there is none, or the index is out of range, it raises `ValueError`. -/
theorem C69_private (H : Hashes) (L : Secp) (k : BIP32PrivateKey) (h : XprvValid k) (n : Int) :
    (∀ c, k.child_safe H L n = .ok c ↔ ∃ m, 0 ≤ n ∧ n ≤ m ∧ (n < 2 ^ 31 ↔ m < 2 ^ 31) ∧ k.child H L m = .ok c ∧
      ∀ j, n ≤ j → j < m → k.child H L j = .error .valueError) ∧
    (∀ e, k.child_safe H L n = .error e → e = .valueError) := by
  rw [BIP32PrivateKey.child_safe]
  by_cases hn : 0 ≤ n ∧ n < 2 ^ 32
  · have hm : ∀ m c, k.child H L m = .ok c → m < 2 ^ 32 := by
      intro m c hc
      obtain ⟨m', rfl, hm, _⟩ := ((C64_private H L k h m).1 c).1 hc
      omega
    by_cases h31 : n < 2 ^ 31
    · obtain ⟨i1, i2⟩ := BIP32PrivateKey.child_safe_loop_spec H L k h (2 ^ 31) (.inl rfl) (2 ^ 33) n (by omega) h31
        (by push_cast; omega)
      refine ⟨fun c => ?_, i2⟩
      rw [i1 c]
      constructor
      · rintro ⟨m, m1, m2, m3, m4⟩
        exact ⟨m, hn.1, m1, ⟨fun _ => m2, fun _ => h31⟩, m3, m4⟩
      · rintro ⟨m, _, m1, m2, m3, m4⟩
        exact ⟨m, m1, m2.1 h31, m3, m4⟩
    · obtain ⟨i1, i2⟩ := BIP32PrivateKey.child_safe_loop_spec H L k h (2 ^ 32) (.inr rfl) (2 ^ 33) n (by omega) hn.2
        (by push_cast; omega)
      refine ⟨fun c => ?_, i2⟩
      rw [i1 c]
      constructor
      · rintro ⟨m, m1, m2, m3, m4⟩
        exact ⟨m, hn.1, m1, ⟨fun x => absurd x h31, fun x => by omega⟩, m3, m4⟩
      · rintro ⟨m, _, m1, m2, m3, m4⟩
        exact ⟨m, m1, hm m c m3, m3, m4⟩
  · have he : k.child_safe_loop H L (2 ^ 33) n = .error .valueError := by
      rw [show (2 ^ 33 : Nat) = (2 ^ 33 - 1) + 1 from rfl, BIP32PrivateKey.child_safe_loop,
        BIP32PrivateKey.child_range H L k n hn]
      dsimp only
      rw [if_pos (show Err.isValueError .valueError = true from rfl), if_pos hn]
    rw [he]
    refine ⟨fun c => ⟨(by intro e; cases e), ?_⟩, (by intro e he; cases he; rfl)⟩
    rintro ⟨m, m0, m1, m2, m3, m4⟩
    obtain ⟨m', rfl, hm, _⟩ := ((C64_private H L k h m).1 c).1 m3
    omega

theorem BIP32PublicKey.child_safe_loop_spec {L : Secp} (H : Hashes) (k : BIP32PublicKey L) (h : XpubValid k)
    (fuel : Nat) (n : Int) (h0 : 0 ≤ n) (h1 : n ≤ 2 ^ 31) (hf : 2 ^ 31 - n < fuel) :
    (∀ c, k.child_safe_loop H fuel n = .ok c ↔ ∃ m, n ≤ m ∧ k.child H m = .ok c ∧
      ∀ j, n ≤ j → j < m → k.child H j = .error .valueError) ∧
    (∀ e, k.child_safe_loop H fuel n = .error e → e = .valueError) := by
  induction fuel generalizing n with
  | zero => omega
  | succ fuel ih =>
    rw [BIP32PublicKey.child_safe_loop]
    cases hc : k.child H n with
    | ok c =>
      dsimp only
      refine ⟨fun c' => ⟨fun e => ⟨n, le_refl n, by rw [hc]; exact e, fun j a b => by omega⟩, ?_⟩, (by intro e he; cases he)⟩
      rintro ⟨m, m1, m3, m4⟩
      by_cases hm : m = n
      · rw [hm, hc] at m3; exact m3
      · have := m4 n (le_refl n) (by omega)
        rw [hc] at this; cases this
    | error e =>
      obtain rfl := (C64_public H k h n).2 e hc
      dsimp only
      rw [if_pos (show Err.isValueError .valueError = true from rfl)]
      by_cases hb : n = 2 ^ 31
      · rw [if_pos (show ¬ (0 ≤ n ∧ n < HARDENED) by rw [HARDENED]; omega)]
        refine ⟨fun c => ⟨(by intro e; cases e), ?_⟩, (by intro e he; cases he; rfl)⟩
        rintro ⟨m, m1, m3, m4⟩
        obtain ⟨m', rfl, hm, _⟩ := ((C64_public H k h m).1 c).1 m3
        omega
      · rw [if_neg (show ¬ ¬ (0 ≤ n ∧ n < HARDENED) by rw [HARDENED]; omega)]
        obtain ⟨i1, i2⟩ := ih (n + 1) (by omega) (by omega) (by omega)
        refine ⟨fun c => ?_, i2⟩
        rw [i1 c]
        constructor
        · rintro ⟨m, m1, m3, m4⟩
          refine ⟨m, by omega, m3, fun j a b => ?_⟩
          by_cases hj : j = n
          · rw [hj, hc]
          · exact m4 j (by omega) b
        · rintro ⟨m, m1, m3, m4⟩
          have : m ≠ n := by rintro rfl; rw [hc] at m3; cases m3
          exact ⟨m, by omega, m3, fun j a b => m4 j (by omega) b⟩

/-- The same for public keys. -/
theorem C69_public {L : Secp} (H : Hashes) (k : BIP32PublicKey L) (h : XpubValid k) (n : Int) :
    (∀ c, k.child_safe H n = .ok c ↔ ∃ m, 0 ≤ n ∧ n ≤ m ∧ k.child H m = .ok c ∧
      ∀ j, n ≤ j → j < m → k.child H j = .error .valueError) ∧
    (∀ e, k.child_safe H n = .error e → e = .valueError) := by
  rw [BIP32PublicKey.child_safe]
  by_cases hn : 0 ≤ n ∧ n ≤ 2 ^ 31
  · obtain ⟨i1, i2⟩ := BIP32PublicKey.child_safe_loop_spec H k h (2 ^ 33) n hn.1 hn.2 (by push_cast; omega)
    refine ⟨fun c => ?_, i2⟩
    rw [i1 c]
    simp only [hn.1, true_and]
  · have hr : ¬ (0 ≤ n ∧ n < 2 ^ 31) := by omega
    have he : k.child_safe_loop H (2 ^ 33) n = .error .valueError := by
      rw [show (2 ^ 33 : Nat) = (2 ^ 33 - 1) + 1 from rfl, BIP32PublicKey.child_safe_loop,
        BIP32PublicKey.child_range H k n hr]
      dsimp only
      rw [if_pos (show Err.isValueError .valueError = true from rfl), if_pos (show ¬ (0 ≤ n ∧ n < HARDENED) from hr)]
    rw [he]
    refine ⟨fun c => ⟨(by intro e; cases e), ?_⟩, (by intro e he; cases he; rfl)⟩
    rintro ⟨m, m0, m1, m3, m4⟩
    obtain ⟨m', rfl, hm, _⟩ := ((C64_public H k h m).1 c).1 m3
    omega

/-! ## C85: the keys a program can obtain -/

theorem BIP32PrivateKey.new_eq_ok {s : Bytes} {d : BIP32Derivation} {coin : Coin} {k : BIP32PrivateKey} :
    BIP32PrivateKey.new s d coin = .ok k ↔
      PrivValid k.key ∧ k = { key := { secret := s, compressed := true, coin := coin }, derivation := d } := by
  rw [BIP32PrivateKey.new]
  constructor
  · intro h
    obtain ⟨p, hp, h⟩ := bind_eq_ok.mp h
    obtain ⟨h1, h2⟩ := PrivateKey.new_eq_ok.1 hp
    rw [← Except.ok.inj h, h2]
    exact ⟨h2 ▸ h1, rfl⟩
  · rintro ⟨h1, h2⟩
    rw [h2] at h1
    rw [PrivateKey.new_eq_ok.2 ⟨h1, rfl⟩, h2]
    rfl

/-- The master key of a seed, as BIP32 has it. -/
theorem C85_seed (H : Hashes) (seed : Bytes) (coin : Coin) (k : BIP32PrivateKey) :
    BIP32PrivateKey.from_seed H seed coin = .ok k ↔
      (let I := H.hmac_sha512 (utf8 "Bitcoin seed".toList) seed
       0 < beValue (I.take 32) ∧ beValue (I.take 32) < CURVE_ORDER ∧ k.key.secret = I.take 32 ∧
       k.key.compressed = true ∧ k.key.coin = coin ∧
       k.derivation = { chain_code := I.drop 32, n := 0, depth := 0, parent_fingerprint := [0, 0, 0, 0] }) := by
  rw [BIP32PrivateKey.from_seed, BIP32PrivateKey.from_parts]
  have hl := hmac_half_length H (utf8 "Bitcoin seed".toList) seed
  rw [Hashes.hmac_sha512_halves]
  generalize H.hmac_sha512 (utf8 "Bitcoin seed".toList) seed = I at *
  rw [BIP32PrivateKey.new_eq_ok, PrivValid, be_bytes_to_int_eq]
  dsimp only
  constructor
  · rintro ⟨⟨_, h2, h3⟩, rfl⟩
    exact ⟨h2, h3, rfl, rfl, rfl, rfl⟩
  · rintro ⟨h1, h2, h3, h4, h5, h6⟩
    obtain ⟨⟨ks, kc, kcoin⟩, kd⟩ := k
    simp only at h3 h4 h5 h6
    rw [h3, h4, h5, h6]
    exact ⟨⟨hl.1, h1, h2⟩, rfl⟩

/-- A seed whose hash is no valid secret raises `ValueError`; there is no other exception. -/
theorem C85_seed_error (H : Hashes) (seed : Bytes) (coin : Coin) (e : Err)
    (h : BIP32PrivateKey.from_seed H seed coin = .error e) : e = .valueError := by
  rw [BIP32PrivateKey.from_seed, BIP32PrivateKey.from_parts, BIP32PrivateKey.new] at h
  rcases bind_eq_error.mp h with h | ⟨_, _, h⟩
  · exact PrivateKey.new_error h
  · cases h

theorem from_parts_valid {s c : Bytes} {coin : Coin} {k : BIP32PrivateKey} (hc : c.length = 32)
    (h : BIP32PrivateKey.from_parts s c coin = .ok k) : XprvValid k := by
  obtain ⟨h1, h2⟩ := BIP32PrivateKey.new_eq_ok.1 h
  rw [h2] at h1 ⊢
  exact ⟨h1, rfl, hc, rfl, le_refl _, by norm_num, le_refl _⟩

/-- `BIP32PrivateKey.from_random` with draws of 64 bytes: the first whose first half is a valid secret gives the key,
its second half the chain code; the draws before it have no valid first half. -/
theorem C77_extended (draws : List Bytes) (hd : ∀ d ∈ draws, d.length = 64) (k : BIP32PrivateKey) (rest : List Bytes) :
    BIP32PrivateKey.from_random draws = .ok (some (k, rest)) ↔
      ∃ bad d, draws = bad ++ d :: rest ∧ Secret (beValue (d.take 32)) ∧
        (∀ x ∈ bad, ¬ Secret (beValue (x.take 32))) ∧ k.key.secret = d.take 32 ∧ k.key.compressed = true ∧
        k.key.coin = Bitcoin ∧
        k.derivation = { chain_code := d.drop 32, n := 0, depth := 0, parent_fingerprint := [0, 0, 0, 0] } := by
  have hparts : ∀ d : Bytes, d.length = 64 →
      (Secret (beValue (d.take 32)) → BIP32PrivateKey.from_parts (d.take 32) (d.drop 32) Bitcoin =
        .ok ⟨⟨d.take 32, true, Bitcoin⟩, ⟨d.drop 32, 0, 0, [0, 0, 0, 0]⟩⟩) ∧
      (¬ Secret (beValue (d.take 32)) → BIP32PrivateKey.from_parts (d.take 32) (d.drop 32) Bitcoin =
        .error .valueError) := by
    intro d hl
    have hiff := fun k => @BIP32PrivateKey.new_eq_ok (d.take 32)
      ⟨d.drop 32, 0, 0, [0, 0, 0, 0]⟩ Bitcoin k
    constructor
    · intro hs
      exact (hiff _).2 ⟨⟨by simp [hl], by rw [be_bytes_to_int_eq]; exact hs⟩, rfl⟩
    · intro hs
      cases hp : BIP32PrivateKey.from_parts (d.take 32) (d.drop 32) Bitcoin with
      | ok k =>
        obtain ⟨⟨_, h2⟩, rfl⟩ := (hiff k).1 hp
        rw [be_bytes_to_int_eq] at h2
        exact absurd h2 hs
      | error e =>
        rw [BIP32PrivateKey.from_parts, BIP32PrivateKey.new] at hp
        rcases bind_eq_error.mp hp with h | ⟨_, _, h⟩
        · rw [PrivateKey.new_error h]
        · cases h
  induction draws with
  | nil => simp [BIP32PrivateKey.from_random]
  | cons d ds ih =>
    have ih := ih (fun x hx => hd x (by simp [hx]))
    obtain ⟨h1, h2⟩ := hparts d (hd d (by simp))
    rw [BIP32PrivateKey.from_random]
    by_cases hs : Secret (beValue (d.take 32))
    · rw [h1 hs]
      simp only [Except.ok.injEq, Option.some.injEq, Prod.mk.injEq]
      constructor
      · rintro ⟨rfl, rfl⟩
        exact ⟨[], d, rfl, hs, by simp, by dsimp only, by dsimp only, by dsimp only, by dsimp only⟩
      · rintro ⟨bad, d', e, hs', hb, e1, e2, e3, e4⟩
        cases bad with
        | nil =>
          simp only [List.nil_append, List.cons.injEq] at e
          obtain ⟨rfl, rfl⟩ := e
          obtain ⟨⟨ks, kc, kcoin⟩, kd⟩ := k
          simp only at e1 e2 e3 e4
          rw [e1, e2, e3, e4]
          exact ⟨rfl, rfl⟩
        | cons x bad =>
          simp only [List.cons_append, List.cons.injEq] at e
          exact absurd (e.1 ▸ hs) (hb x (by simp))
    · rw [h2 hs]
      simp only [show Err.isValueError .valueError = true from rfl, if_true]
      refine ih.trans ?_
      constructor
      · rintro ⟨bad, d', rfl, hs', hb, e⟩
        refine ⟨d :: bad, d', rfl, hs', ?_, e⟩
        intro x hx
        rcases List.mem_cons.1 hx with rfl | hx
        · exact hs
        · exact hb x hx
      · rintro ⟨bad, d', e, hs', hb, e'⟩
        cases bad with
        | nil =>
          simp only [List.nil_append, List.cons.injEq] at e
          exact absurd (e.1 ▸ hs') hs
        | cons x bad =>
          simp only [List.cons_append, List.cons.injEq] at e
          exact ⟨bad, d', e.2, hs', fun y hy => hb y (by simp [hy]), e'⟩

/-- Whatever is drawn, only `ValueError` can arise inside, and it leads to another draw: nothing is raised. -/
theorem C77_extended_no_error (draws : List Bytes) (e : Err) : BIP32PrivateKey.from_random draws ≠ .error e := by
  induction draws with
  | nil => simp [BIP32PrivateKey.from_random]
  | cons d ds ih =>
    rw [BIP32PrivateKey.from_random]
    cases hp : BIP32PrivateKey.from_parts (d.take 32) (d.drop 32) Bitcoin with
    | ok k => simp
    | error e' =>
      rw [BIP32PrivateKey.from_parts, BIP32PrivateKey.new] at hp
      rcases bind_eq_error.mp hp with h | ⟨_, _, h⟩
      · rw [PrivateKey.new_error h]
        simpa only [show Err.isValueError .valueError = true from rfl, if_true] using ih
      · cases h

example : BIP32PrivateKey.from_random [zeros 64, zeros 31 ++ [7] ++ List.replicate 32 9, List.replicate 64 1] =
    .ok (some (⟨⟨zeros 31 ++ [7], true, Bitcoin⟩, ⟨List.replicate 32 9, 0, 0, [0, 0, 0, 0]⟩⟩,
      [List.replicate 64 1])) := by
  refine (C77_extended _ (by decide +kernel) _ _).2 ⟨[zeros 64], zeros 31 ++ [7] ++ List.replicate 32 9, rfl, ?_, ?_,
    by decide +kernel, rfl, by dsimp only, by decide +kernel⟩
  · unfold Secret; decide +kernel
  · intro x hx
    rw [List.mem_singleton.1 hx]
    unfold Secret; decide +kernel

/-- Every extended key a program obtains is valid: a secret in range or a point other than infinity, a chain
code of 32 bytes, a fingerprint of 4, an index below `2 ** 32`. -/
theorem C85_valid (H : Hashes) (L : Secp) :
    (∀ k, ObtainedPriv H L k → XprvValid k) ∧ (∀ p : BIP32PublicKey L, ObtainedPub H L p → XpubValid p) := by
  have h1 : ∀ k, ObtainedPriv H L k → XprvValid k := by
    intro k hk
    induction hk with
    | seed h =>
      rw [BIP32PrivateKey.from_seed, Hashes.hmac_sha512_halves] at h
      exact from_parts_valid (hmac_half_length H _ _).2 h
    | @random draws k rest hd h =>
      induction draws with
      | nil => rw [BIP32PrivateKey.from_random] at h; cases h
      | cons d ds ih =>
        rw [BIP32PrivateKey.from_random] at h
        cases hp : BIP32PrivateKey.from_parts (d.take 32) (d.drop 32) Bitcoin with
        | ok k' =>
          rw [hp] at h
          have : k' = k := by
            have := Option.some.inj (Except.ok.inj h)
            exact (Prod.mk.inj this).1
          rw [← this]
          exact from_parts_valid (by rw [List.length_drop, hd d (by simp)]) hp
        | error e =>
          rw [hp] at h
          dsimp only at h
          split at h
          · exact ih (fun d hd' => hd d (by simp [hd'])) h
          · cases h
    | text h => exact ((C65_accepts H L _).1 _ h).1.1
    | child _ h ih => exact ih.child h
    | child_safe _ h ih =>
      obtain ⟨m, _, _, _, h, _⟩ := ((C69_private H L _ ih _).1 _).1 h
      exact ih.child h
  refine ⟨h1, fun p hp => ?_⟩
  induction hp with
  | public_key hk h => exact (h1 _ hk).public_key h
  | text h => exact ((C65_accepts H L _).1 _ h).1.1
  | child _ h ih => exact ih.child h
  | child_safe _ h ih =>
    obtain ⟨m, _, _, h, _⟩ := ((C69_public H _ ih _).1 _).1 h
    exact ih.child h

/-! ## C66: which keys have a text -/

theorem derivePriv_spec (H : Hashes) (L : Secp) (path : List Int) (k c : BIP32PrivateKey) (h : XprvValid k)
    (hc : derivePriv H L k path = .ok c) :
    XprvValid c ∧ c.derivation.depth = k.derivation.depth + path.length ∧ c.key.coin = k.key.coin := by
  induction path generalizing k with
  | nil =>
    rw [derivePriv] at hc
    rw [← Except.ok.inj hc]
    exact ⟨h, by simp, rfl⟩
  | cons n path ih =>
    rw [derivePriv] at hc
    cases hk : k.child H L n with
    | error e => rw [hk] at hc; cases hc
    | ok c' =>
      rw [hk] at hc
      obtain ⟨i1, i2, i3⟩ := ih c' (h.child hk) hc
      obtain ⟨m, _, _, _, _, _, _, _, h6, _, _, h9, _⟩ := ((C64_private H L k h n).1 c').1 hk
      refine ⟨i1, ?_, by rw [i3, h6]⟩
      rw [i2, h9, List.length_cons]
      push_cast
      ring

/-- A key derived from a seed has a text exactly if its path has at most 255 steps; with more steps
`struct.error` is raised. -/
theorem C66_depth (H : Hashes) (L : Secp) (seed : Bytes) (coin : Coin) (k c : BIP32PrivateKey) (path : List Int)
    (hk : BIP32PrivateKey.from_seed H seed coin = .ok k) (hc : derivePriv H L k path = .ok c) :
    ((∃ t, c.to_extended_key_string H = .ok t) ↔ path.length ≤ 255) ∧
    (255 < path.length → c.to_extended_key_string H = .error .structError) := by
  have hv := (C85_valid H L).1 k (.seed hk)
  obtain ⟨h1, h2, _⟩ := derivePriv_spec H L path k c hv hc
  have hd : k.derivation.depth = 0 := by
    obtain ⟨_, _, _, _, _, h⟩ := (C85_seed H seed coin k).1 hk
    rw [h]
  rw [hd, zero_add] at h2
  rw [BIP32PrivateKey.to_extended_key_string, BIP32PrivateKey.extended_key_eq c h1, h2]
  by_cases hl : path.length ≤ 255
  · rw [if_pos (by exact_mod_cast hl)]
    exact ⟨⟨fun _ => hl, fun _ => ⟨_, rfl⟩⟩, fun h => by omega⟩
  · rw [if_neg (by exact_mod_cast hl)]
    exact ⟨⟨(by rintro ⟨t, ht⟩; cases ht), fun h => absurd h hl⟩, fun _ => rfl⟩

/-- The claim holds for paths of at most 255 steps; what is missing is false, see `C66_fails`. -/
theorem C66_serializable_partial (H : Hashes) (L : Secp) (seed : Bytes) (coin : Coin) (k c : BIP32PrivateKey)
    (path : List Int) (hk : BIP32PrivateKey.from_seed H seed coin = .ok k) (hc : derivePriv H L k path = .ok c)
    (hl : path.length ≤ 255) : ∃ t, c.to_extended_key_string H = .ok t :=
  (C66_depth H L seed coin k c path hk hc).1.2 hl

/-- Hash functions of which HMAC is constant: every child adds one to the secret. -/
def plusOne : Hashes :=
  { toyHashes with
    hmac_sha512 := fun _ _ => beBytes 32 1 ++ zeros 32
    hmac_sha512_length := fun _ _ => by simp [zeros] }

theorem plusOne_derive (L : Secp) (i : Nat) (k : BIP32PrivateKey) (h : XprvValid k)
    (hs : secretNumber k.key + i < CURVE_ORDER) : ∃ c, derivePriv plusOne L k (List.replicate i 0) = .ok c := by
  induction i generalizing k with
  | zero => exact ⟨k, rfl⟩
  | succ i ih =>
    have hlt : secretNumber k.key + 1 < CURVE_ORDER := by omega
    have hb : be_bytes_to_int (beBytes 32 (secretNumber k.key + 1)) = secretNumber k.key + 1 := beBytes32 _ hlt
    have hone : beValue ((beBytes 32 1 ++ zeros 32).take 32) = 1 := by
      rw [List.take_append_of_le_length (by simp), List.take_of_length_le (by simp)]
      exact beValue_beBytes _ _ (by norm_num)
    have hc : k.child plusOne L 0 = .ok { key := { secret := beBytes 32 (secretNumber k.key + 1), compressed := true, coin := k.key.coin }, derivation := childDerivation plusOne L (secretNumber k.key • L.gen) k.derivation 0 (beBytes 32 1 ++ zeros 32) } := by
      refine ((C64_private plusOne L k h 0).1 _).2 ⟨0, rfl, by norm_num, ?_⟩
      have hI : ckdPrivHash plusOne L k 0 = beBytes 32 1 ++ zeros 32 := rfl
      rw [IsChildPriv, hI, hone, secretNumber]
      dsimp only
      rw [hb]
      refine ⟨curve_order_prime.one_lt, ?_, by omega, beBytes_length _ _, rfl, rfl, rfl, rfl, rfl, rfl⟩
      rw [Nat.mod_eq_of_lt (by omega), Nat.add_comm]
    rw [List.replicate_succ, derivePriv, hc]
    refine ih _ (h.child hc) ?_
    rw [secretNumber]
    dsimp only
    rw [hb]
    omega

/-- The claim is false: with suitable hash functions a seed has a key at depth 256, and it has no text. -/
theorem C66_fails : ∃ (H : Hashes) (L : Secp) (seed : Bytes) (k c : BIP32PrivateKey) (path : List Int),
    BIP32PrivateKey.from_seed H seed Bitcoin = .ok k ∧ derivePriv H L k path = .ok c ∧
      c.to_extended_key_string H = .error .structError := by
  have hone : beValue (beBytes 32 1) = 1 := beValue_beBytes _ _ (by norm_num)
  have htake : (beBytes 32 1 ++ zeros 32).take 32 = beBytes 32 1 := by
    rw [List.take_append_of_le_length (by simp), List.take_of_length_le (by simp)]
  obtain ⟨k, hk, hks⟩ : ∃ k : BIP32PrivateKey, BIP32PrivateKey.from_seed plusOne [] Bitcoin = .ok k ∧ k.key.secret = beBytes 32 1 := by
    refine ⟨{ key := { secret := beBytes 32 1, compressed := true, coin := Bitcoin }, derivation := { chain_code := (beBytes 32 1 ++ zeros 32).drop 32, n := 0, depth := 0, parent_fingerprint := [0, 0, 0, 0] } },
      (C85_seed plusOne [] Bitcoin _).2 ?_, rfl⟩
    rw [show plusOne.hmac_sha512 _ _ = beBytes 32 1 ++ zeros 32 from rfl]
    refine ⟨?_, ?_, ?_, rfl, by dsimp only, by dsimp only⟩
    · rw [htake, hone]; norm_num
    · rw [htake, hone]; exact curve_order_prime.one_lt
    · exact htake.symm
  have hv := (C85_valid plusOne toySecp).1 k (.seed hk)
  obtain ⟨c, hc⟩ := plusOne_derive toySecp 256 k hv (by
    rw [secretNumber, hks, be_bytes_to_int_eq, hone]; unfold CURVE_ORDER; norm_num)
  exact ⟨plusOne, toySecp, [], k, c, List.replicate 256 0, hk, hc,
    (C66_depth plusOne toySecp [] Bitcoin k c _ hk hc).2 (by rw [List.length_replicate]; norm_num)⟩

/-! ## C67, C68: chain strings -/

theorem splitCharLoop_join (sep : Char) (w acc : Str) (ps : List Str) (hw : sep ∉ w) (hp : ∀ p ∈ ps, sep ∉ p) :
    splitCharLoop sep acc (w ++ ps.flatMap (fun p => sep :: p)) = (acc ++ w) :: ps := by
  induction ps generalizing w acc with
  | nil =>
    simp only [List.flatMap_nil, List.append_nil]
    induction w generalizing acc with
    | nil => simp [splitCharLoop]
    | cons c cs ih =>
      have hc : ¬ c = sep := fun e => hw (by simp [e])
      rw [splitCharLoop, if_neg hc, ih _ (fun h => hw (by simp [h]))]
      simp
  | cons p ps ihp =>
    induction w generalizing acc with
    | nil =>
      rw [List.nil_append, List.flatMap_cons, List.cons_append, splitCharLoop, if_pos rfl,
        ihp _ _ (hp p (by simp)) (fun q hq => hp q (by simp [hq]))]
      simp
    | cons c cs ih =>
      have hc : ¬ c = sep := fun e => hw (by simp [e])
      rw [List.cons_append, splitCharLoop, if_neg hc, ih _ (fun h => hw (by simp [h]))]
      simp

theorem splitCharLoop_inv (sep : Char) (t acc : Str) (ha : sep ∉ acc) :
    ∃ w ps, splitCharLoop sep acc t = (acc ++ w) :: ps ∧ t = w ++ ps.flatMap (fun p => sep :: p) ∧ sep ∉ w ∧
      ∀ p ∈ ps, sep ∉ p := by
  induction t generalizing acc with
  | nil => exact ⟨[], [], by simp [splitCharLoop], by simp, by simp, by simp⟩
  | cons c cs ih =>
    by_cases hc : c = sep
    · obtain ⟨w, ps, h1, h2, h3, h4⟩ := ih [] (by simp)
      refine ⟨[], w :: ps, ?_, ?_, by simp, ?_⟩
      · rw [splitCharLoop, if_pos hc, h1]; simp
      · rw [h2, hc]; simp
      · intro p hp
        rcases List.mem_cons.1 hp with rfl | hp
        · exact h3
        · exact h4 p hp
    · obtain ⟨w, ps, h1, h2, h3, h4⟩ := ih (acc ++ [c]) (by
        rw [List.mem_append, List.mem_singleton]
        exact fun h => h.elim ha (fun e => hc e.symm))
      refine ⟨c :: w, ps, ?_, by rw [h2]; simp, ?_, h4⟩
      · rw [splitCharLoop, if_neg hc, h1]; simp
      · rw [List.mem_cons]
        exact fun h => h.elim (fun e => hc e.symm) h3

theorem splitChar_chainText (parts : List Str) (h : ∀ p ∈ parts, '/' ∉ p) :
    splitChar '/' (chainText parts) = ['m'] :: parts := by
  have := splitCharLoop_join '/' ['m'] [] parts (by decide) h
  exact this

theorem over_digit {digits : Str} (h : Over decAlphabet digits) : ∀ c ∈ digits, isAsciiDigit c = true :=
  fun c hc => (isAsciiDigit_iff c).2 (h c hc)

theorem takeWhile_digits (digits suffix : Str) (h : Over decAlphabet digits)
    (hs : ∀ c, suffix.head? = some c → isAsciiDigit c = false) :
    (digits ++ suffix).takeWhile isAsciiDigit = digits ∧ (digits ++ suffix).dropWhile isAsciiDigit = suffix := by
  have hd := over_digit h
  rw [List.takeWhile_append_of_pos hd, List.dropWhile_append_of_pos hd]
  cases suffix with
  | nil => simp
  | cons c cs => simp [hs c rfl]

/-- The suffixes that the regular expression accepts after the digits. -/
def suffixes : List Str := [[], ['\''], ['\n'], ['\'', '\n']]

/-- A text without an apostrophe at its start. -/
def stripQuote (rest : Str) : Str := if rest.head? = some '\'' then rest.drop 1 else rest

theorem part_match_def (part : Str) : part_match part =
    if part.takeWhile isAsciiDigit ≠ [] ∧ (stripQuote (part.dropWhile isAsciiDigit) = [] ∨
      stripQuote (part.dropWhile isAsciiDigit) = ['\n']) then some (part.takeWhile isAsciiDigit) else none := rfl

theorem suffixes_spec : ∀ s ∈ suffixes, (∀ c, s.head? = some c → isAsciiDigit c = false) ∧
    (stripQuote s = [] ∨ stripQuote s = ['\n']) := by
  intro s hs
  simp only [suffixes, List.mem_cons, List.not_mem_nil, or_false] at hs
  rcases hs with rfl | rfl | rfl | rfl
  · exact ⟨fun c h => (by cases h), by decide⟩
  · exact ⟨fun c h => (by cases h; decide), by decide⟩
  · exact ⟨fun c h => (by cases h; decide), by decide⟩
  · exact ⟨fun c h => (by cases h; decide), by decide⟩

theorem part_match_iff (part digits : Str) :
    part_match part = some digits ↔
      digits ≠ [] ∧ Over decAlphabet digits ∧ ∃ suffix ∈ suffixes, part = digits ++ suffix := by
  rw [part_match_def]
  constructor
  · intro h
    by_cases hc : part.takeWhile isAsciiDigit ≠ [] ∧ (stripQuote (part.dropWhile isAsciiDigit) = [] ∨
        stripQuote (part.dropWhile isAsciiDigit) = ['\n'])
    · rw [if_pos hc] at h
      obtain ⟨h1, h2⟩ := hc
      have hd := Option.some.inj h
      refine ⟨hd ▸ h1, ?_, part.dropWhile isAsciiDigit, ?_, ?_⟩
      · intro c hc
        rw [← hd] at hc
        exact (isAsciiDigit_iff c).1 (List.all_eq_true.1 List.all_takeWhile c hc)
      · cases hr : part.dropWhile isAsciiDigit with
        | nil => simp [suffixes]
        | cons c cs =>
          rw [hr, stripQuote] at h2
          by_cases hc : c = '\''
          · rw [if_pos (show (c :: cs).head? = some '\'' by rw [hc]; rfl)] at h2
            simp only [List.drop_succ_cons, List.drop_zero] at h2
            rcases h2 with h2 | h2 <;> rw [hc, h2] <;> simp [suffixes]
          · have hn : ¬ (c :: cs).head? = some '\'' := fun e => hc (Option.some.inj e)
            rw [if_neg hn] at h2
            rcases h2 with h2 | h2
            · cases h2
            · rw [h2]; simp [suffixes]
      · rw [← hd]; exact (List.takeWhile_append_dropWhile).symm
    · rw [if_neg hc] at h; cases h
  · rintro ⟨h1, h2, suffix, hs, rfl⟩
    obtain ⟨s1, s2⟩ := suffixes_spec suffix hs
    obtain ⟨t1, t2⟩ := takeWhile_digits digits suffix h2 s1
    rw [t1, t2, if_pos ⟨h1, s2⟩]

theorem decompose_part_iff (P : PyText) (part : Str) (n : Int) :
    decompose_part P part = .ok n ↔ AcceptedPart P part n := by
  rw [decompose_part]
  have key : ∀ digits v suffix, digits ≠ [] → numeral decAlphabet digits = some v → v < 2 ^ 31 → suffix ∈ suffixes →
      part = digits ++ suffix →
      ((((part = digits ∨ part = digits ++ ['\n'] ∨ part = digits ++ ['\'', '\n']) ∧ n = v) ∨
        (part = digits ++ ['\''] ∧ n = v + 2 ^ 31)) ↔
        (if part.getLast? = some '\'' then (v : Int) + HARDENED else v) = n) := by
    intro digits v suffix hne hnum hv hs hpart
    have hover := (numeral_dec_isSome digits).1 ⟨v, hnum⟩
    have hlast : digits.getLast? ≠ some '\'' := by
      intro e
      have := hover _ (List.mem_of_getLast? e)
      exact absurd this (by decide)
    simp only [suffixes, List.mem_cons, List.not_mem_nil, or_false] at hs
    rcases hs with rfl | rfl | rfl | rfl
    · rw [List.append_nil] at hpart
      subst hpart
      rw [if_neg hlast]
      constructor
      · rintro (⟨_, hn⟩ | ⟨h, _⟩)
        · exact hn.symm
        · exact absurd h (by simp)
      · intro h; exact .inl ⟨.inl rfl, h.symm⟩
    · subst hpart
      rw [if_pos (by simp), HARDENED]
      constructor
      · rintro (⟨h | h | h, _⟩ | ⟨_, hn⟩)
        · exact absurd h (by simp)
        · exact absurd h (by simp)
        · exact absurd h (by simp)
        · exact hn.symm
      · intro h; exact .inr ⟨rfl, h.symm⟩
    · subst hpart
      rw [if_neg (by simp)]
      constructor
      · rintro (⟨_, hn⟩ | ⟨h, _⟩)
        · exact hn.symm
        · exact absurd h (by simp)
      · intro h; exact .inl ⟨.inr (.inl rfl), h.symm⟩
    · subst hpart
      rw [if_neg (by simp)]
      constructor
      · rintro (⟨_, hn⟩ | ⟨h, _⟩)
        · exact hn.symm
        · exact absurd h (by simp)
      · intro h; exact .inl ⟨.inr (.inr rfl), h.symm⟩
  constructor
  · intro h
    cases hm : part_match part with
    | none => rw [hm] at h; cases h
    | some digits =>
      rw [hm] at h
      dsimp only at h
      obtain ⟨h1, h2, suffix, hs, hpart⟩ := (part_match_iff part digits).1 hm
      obtain ⟨v, hv, h⟩ := bind_eq_ok.mp h
      obtain ⟨w, hw⟩ := (numeral_dec_isSome digits).2 h2
      have hlim : P.max_str_digits = 0 ∨ digits.length ≤ P.max_str_digits := by
        by_contra hcon
        have : P.max_str_digits ≠ 0 ∧ digits.length > P.max_str_digits := by omega
        rw [PyText.intOfDigits, if_pos this] at hv
        cases hv
      have hvw : v = w := by
        rw [intOfDigits_numeral P digits w hw hlim] at hv
        exact (Except.ok.inj hv).symm
      subst hvw
      by_cases hb : (v : Int) ≥ HARDENED
      · rw [if_pos hb] at h; cases h
      · rw [if_neg hb] at h
        have hv31 : v < 2 ^ 31 := by rw [HARDENED] at hb; omega
        refine ⟨digits, v, h1, hw, hv31, hlim, (key digits v suffix h1 hw hv31 hs hpart).2 ?_⟩
        by_cases hl : part.getLast? = some '\''
        · rw [if_pos hl] at h ⊢; exact Except.ok.inj h
        · rw [if_neg hl] at h ⊢; exact Except.ok.inj h
  · rintro ⟨digits, v, hne, hnum, hv, hlim, hcase⟩
    obtain ⟨suffix, hs, hpart⟩ : ∃ suffix ∈ suffixes, part = digits ++ suffix := by
      rcases hcase with ⟨h | h | h, _⟩ | ⟨h, _⟩
      · exact ⟨[], by simp [suffixes], by simpa using h⟩
      · exact ⟨_, by simp [suffixes], h⟩
      · exact ⟨_, by simp [suffixes], h⟩
      · exact ⟨_, by simp [suffixes], h⟩
    have hover := (numeral_dec_isSome digits).1 ⟨v, hnum⟩
    rw [(part_match_iff part digits).2 ⟨hne, hover, suffix, hs, hpart⟩]
    dsimp only
    have hb : ¬ (v : Int) ≥ HARDENED := by rw [HARDENED]; omega
    have hk := (key digits v suffix hne hnum hv hs hpart).1 hcase
    rw [intOfDigits_numeral P digits v hnum hlim, ok_bind', if_neg hb]
    by_cases hl : part.getLast? = some '\''
    · rw [if_pos hl] at hk ⊢; rw [← hk]; rfl
    · rw [if_neg hl] at hk ⊢; rw [← hk]; rfl

theorem decompose_part_error (P : PyText) (part : Str) (e : Err) (h : decompose_part P part = .error e) :
    e = .valueError := by
  rw [decompose_part] at h
  cases hm : part_match part with
  | none => rw [hm] at h; cases h; rfl
  | some digits =>
    rw [hm] at h
    dsimp only at h
    rcases bind_eq_error.mp h with h | ⟨v, _, h⟩
    · rw [PyText.intOfDigits] at h
      split at h
      · cases h; rfl
      · split at h
        · cases h
        · cases h; rfl
    · split at h
      · cases h; rfl
      · split at h <;> cases h

theorem acceptedPart_slash {P : PyText} {part : Str} {n : Int} (h : AcceptedPart P part n) : '/' ∉ part := by
  obtain ⟨digits, v, _, hnum, _, _, hc⟩ := h
  have hover := (numeral_dec_isSome digits).1 ⟨v, hnum⟩
  have hd : '/' ∉ digits := fun e => absurd (hover _ e) (by decide)
  rcases hc with ⟨h | h | h, _⟩ | ⟨h, _⟩ <;> rw [h] <;> simp [hd]

theorem forall₂_left {α β : Type} {R : α → β → Prop} {Q : α → Prop} (h : ∀ a b, R a b → Q a) {l : List α} {l' : List β}
    (hf : List.Forall₂ R l l') : ∀ a ∈ l, Q a := by
  induction hf with
  | nil => simp
  | cons hab _ ih =>
    intro a ha
    rcases List.mem_cons.1 ha with rfl | ha
    · exact h _ _ hab
    · exact ih a ha

/-- Exactly which texts are accepted and what they denote; all others raise `ValueError`. -/
theorem C68_accepts (P : PyText) (t : Str) :
    (∀ ns, bip32_decompose_chain_string P t = .ok ns ↔
      ∃ parts, t = chainText parts ∧ List.Forall₂ (AcceptedPart P) parts ns) ∧
    (∀ e, bip32_decompose_chain_string P t = .error e → e = .valueError) ∧
    (bip32_is_valid_chain_string P t = .ok true ↔ ∃ ns, bip32_decompose_chain_string P t = .ok ns) ∧
    (bip32_is_valid_chain_string P t = .ok false ↔ bip32_decompose_chain_string P t = .error .valueError) := by
  have h1 : ∀ ns, bip32_decompose_chain_string P t = .ok ns ↔
      ∃ parts, t = chainText parts ∧ List.Forall₂ (AcceptedPart P) parts ns := by
    intro ns
    constructor
    · intro h
      rw [bip32_decompose_chain_string] at h
      obtain ⟨w, ps, e1, e2, e3, e4⟩ := splitCharLoop_inv '/' t [] (by simp)
      rw [splitChar, e1] at h
      dsimp only at h
      rw [List.nil_append] at h
      split at h
      · cases h
      · next hw =>
        have hw := not_not.1 hw
        refine ⟨ps, by rw [e2, hw]; rfl, ?_⟩
        have := mapAll_inv h
        exact this.imp (fun a b hab => (decompose_part_iff P a b).1 hab)
    · rintro ⟨parts, rfl, hf⟩
      rw [bip32_decompose_chain_string, splitChar_chainText parts (forall₂_left (fun a b hab => acceptedPart_slash hab) hf)]
      dsimp only
      rw [if_neg (not_not.2 rfl)]
      exact mapAll_ok (hf.imp (fun a b hab => (decompose_part_iff P a b).2 hab))
  have h2 : ∀ e, bip32_decompose_chain_string P t = .error e → e = .valueError := by
    intro e h
    rw [bip32_decompose_chain_string] at h
    split at h
    · cases h; rfl
    · split at h
      · cases h; rfl
      · obtain ⟨x, _, hx⟩ := mapAll_error h
        exact decompose_part_error P x e hx
  refine ⟨h1, h2, ?_, ?_⟩
  · rw [bip32_is_valid_chain_string]
    cases hd : bip32_decompose_chain_string P t with
    | ok ns => simp
    | error e => rw [h2 e hd]; simp [Err.isValueError]
  · rw [bip32_is_valid_chain_string]
    cases hd : bip32_decompose_chain_string P t with
    | ok ns => simp
    | error e => rw [h2 e hd]; simp [Err.isValueError]

/-- The claim for texts without newlines, where `int` does not limit the number of digits.  Texts with newlines
are missing because the claim is false for them, see `C68_newline`. -/
theorem C68_wellformed_partial (P : PyText) (hP : P.max_str_digits = 0) (t : Str) (ht : '\n' ∉ t) (ns : List Int) :
    bip32_decompose_chain_string P t = .ok ns ↔ ∃ parts, t = chainText parts ∧ List.Forall₂ IsPart parts ns := by
  rw [(C68_accepts P t).1 ns]
  constructor
  · rintro ⟨parts, rfl, hf⟩
    refine ⟨parts, rfl, ?_⟩
    have hn : ∀ p ∈ parts, '\n' ∉ p := by
      intro p hp hc
      apply ht
      rw [chainText, List.mem_cons, List.mem_flatMap]
      exact .inr ⟨p, hp, by simp [hc]⟩
    clear ht
    induction hf with
    | nil => exact .nil
    | @cons a b l l' hab hf ih =>
      refine .cons ?_ (ih (fun p hp => hn p (by simp [hp])))
      obtain ⟨digits, v, q1, q2, q3, _, q5⟩ := hab
      have hna := hn a (by simp)
      rcases q5 with ⟨h | h | h, hv⟩ | h
      · exact ⟨digits, v, q1, q2, q3, .inl ⟨h, hv⟩⟩
      · rw [h] at hna; simp at hna
      · rw [h] at hna; simp at hna
      · exact ⟨digits, v, q1, q2, q3, .inr h⟩
  · rintro ⟨parts, rfl, hf⟩
    refine ⟨parts, rfl, hf.imp ?_⟩
    rintro a b ⟨digits, v, q1, q2, q3, q5⟩
    refine ⟨digits, v, q1, q2, q3, .inl hP, ?_⟩
    rcases q5 with ⟨h, hv⟩ | h
    · exact .inl ⟨.inl h, hv⟩
    · exact .inr h

/-- The claim is false for texts that end with a newline: they are accepted, and an apostrophe before the newline
does not harden. -/
theorem C68_newline (P : PyText) :
    bip32_decompose_chain_string P "m/1'\n".toList = .ok [1] ∧
    bip32_decompose_chain_string P "m/1'".toList = .ok [1 + 2 ^ 31] ∧
    ∀ parts, List.Forall₂ IsPart parts [1] → chainText parts ≠ "m/1'\n".toList := by
  have hnum : numeral decAlphabet ['1'] = some 1 := by decide
  have hlim : P.max_str_digits = 0 ∨ ['1'].length ≤ P.max_str_digits := by simp only [List.length_singleton]; omega
  refine ⟨?_, ?_, ?_⟩
  · refine ((C68_accepts P _).1 _).2 ⟨[['1', '\'', '\n']], by decide, .cons ?_ .nil⟩
    exact ⟨['1'], 1, by decide, hnum, by norm_num, hlim, .inl ⟨.inr (.inr rfl), rfl⟩⟩
  · refine ((C68_accepts P _).1 _).2 ⟨[['1', '\'']], by decide, .cons ?_ .nil⟩
    exact ⟨['1'], 1, by decide, hnum, by norm_num, hlim, .inr ⟨rfl, by norm_num⟩⟩
  · intro parts hf he
    have hmem : '\n' ∈ chainText parts := by rw [he]; decide
    rw [chainText, List.mem_cons, List.mem_flatMap] at hmem
    rcases hmem with h | ⟨p, hp, h⟩
    · exact absurd h (by decide)
    · have : '\n' ∉ p := by
        refine forall₂_left (Q := fun p => '\n' ∉ p) ?_ hf p hp
        rintro a b ⟨digits, v, _, q2, _, q5⟩
        have hover := (numeral_dec_isSome digits).1 ⟨v, q2⟩
        have hd : '\n' ∉ digits := fun e => absurd (hover _ e) (by decide)
        rcases q5 with ⟨h, _⟩ | ⟨h, _⟩ <;> rw [h] <;> simp [hd]
      rw [List.mem_cons] at h
      exact h.elim (by decide) this

theorem joinStr_chainText (parts : List Str) : joinStr ['/'] (['m'] :: parts) = chainText parts := by
  have : ∀ (w : Str) (ps : List Str), joinStr ['/'] (w :: ps) = w ++ ps.flatMap (fun p => '/' :: p) := by
    intro w ps
    induction ps generalizing w with
    | nil => simp [joinStr]
    | cons p ps ih => rw [joinStr, ih]; simp
  rw [this]
  rfl

/-- The text of a list of indexes reads back as the list; indexes out of range raise `ValueError`. -/
theorem C67_roundtrip (P : PyText) (ns : List Int) :
    ((∀ n ∈ ns, 0 ≤ n ∧ n < 2 ^ 32) → ∃ t, bip32_build_chain_string ns = .ok t ∧
      bip32_decompose_chain_string P t = .ok ns) ∧
    ((∃ n ∈ ns, ¬ (0 ≤ n ∧ n < 2 ^ 32)) → bip32_build_chain_string ns = .error .valueError) := by
  constructor
  · intro h
    have hv : bip32_validate_derivation ns = .ok ns := by
      rw [bip32_validate_derivation, if_pos]
      rw [List.all_eq_true]
      intro n hn
      simp only [Bool.and_eq_true, decide_eq_true_eq]
      exact h n hn
    refine ⟨chainText (ns.map chain_part), ?_, ?_⟩
    · rw [bip32_build_chain_string, hv, ok_bind', joinStr_chainText]
      rfl
    · refine ((C68_accepts P _).1 ns).2 ⟨_, rfl, ?_⟩
      have hpart : ∀ n ∈ ns, AcceptedPart P (chain_part n) n := by
        intro n hn
        obtain ⟨h0, h1⟩ := h n hn
        have aux : ∀ v : Nat, v < 2 ^ 31 → strNat v ≠ [] ∧ numeral decAlphabet (strNat v) = some v ∧
            (P.max_str_digits = 0 ∨ (strNat v).length ≤ P.max_str_digits) := by
          intro v hv
          refine ⟨strNat_ne_nil v, numeral_strNat v, ?_⟩
          have := strNat_length v (by omega)
          rcases P.max_str_digits_min with hm | hm
          · exact .inl hm
          · exact .inr (by omega)
        rw [chain_part]
        by_cases hh : n < HARDENED
        · rw [if_pos hh, strInt, if_neg (by omega)]
          rw [HARDENED] at hh
          obtain ⟨a1, a2, a3⟩ := aux n.toNat (by omega)
          exact ⟨_, _, a1, a2, by omega, a3, .inl ⟨.inl rfl, by omega⟩⟩
        · rw [if_neg hh, strInt]
          rw [HARDENED] at hh ⊢
          rw [if_neg (by omega)]
          obtain ⟨a1, a2, a3⟩ := aux (n - 2 ^ 31).toNat (by omega)
          exact ⟨_, _, a1, a2, by omega, a3, .inr ⟨rfl, by omega⟩⟩
      clear h hv
      induction ns with
      | nil => exact .nil
      | cons n ns ih => exact .cons (hpart n (by simp)) (ih (fun m hm => hpart m (by simp [hm])))
  · rintro ⟨n, hn, hr⟩
    rw [bip32_build_chain_string, bip32_validate_derivation, if_neg]
    · rfl
    · intro hall
      have := List.all_eq_true.1 hall n hn
      simp only [Bool.and_eq_true, decide_eq_true_eq] at this
      exact hr this

/-! ## Cases -/

/-- A valid extended private key at depth 3. -/
def xprv3 : BIP32PrivateKey :=
  { key := { secret := beBytes 32 5, compressed := true, coin := BitcoinRegtest }, derivation := { chain_code := zeros 32, n := 7, depth := 3, parent_fingerprint := [1, 2, 3, 4] } }

theorem xprv3_valid : XprvValid xprv3 := by
  unfold XprvValid PrivValid DerivationValid; decide +kernel

/-- With `plusOne` its child 9 has secret 6, depth 4 and index 9, and so on along a path. -/
example : ∃ c, xprv3.child plusOne toySecp 9 = .ok c ∧ secretNumber c.key = 6 ∧ c.derivation.depth = 4 ∧ c.derivation.n = 9 := by
  have h : ∃ c, xprv3.child plusOne toySecp 9 = .ok c := by
    cases hc : xprv3.child plusOne toySecp 9 with
    | ok c => exact ⟨c, rfl⟩
    | error e =>
      rw [BIP32PrivateKey.child_eq plusOne toySecp xprv3 xprv3_valid 9 (by norm_num)] at hc
      have hI : ckdPrivHash plusOne toySecp xprv3 (9 : Int).toNat = beBytes 32 1 ++ zeros 32 := rfl
      rw [hI] at hc
      revert hc
      have : ∃ s, xprv3.key.add ((beBytes 32 1 ++ zeros 32).take 32) = .ok s := by
        cases ha : xprv3.key.add ((beBytes 32 1 ++ zeros 32).take 32) with
        | ok s => exact ⟨s, rfl⟩
        | error e =>
          have : (xprv3.key.add ((beBytes 32 1 ++ zeros 32).take 32)).toBool = true := by decide +kernel
          rw [ha] at this; cases this
      obtain ⟨s, hs⟩ := this
      rw [hs]
      intro hc; cases hc
  obtain ⟨c, hc⟩ := h
  obtain ⟨m, hm, _, _, h2, _, _, _, _, _, h8, h9, _⟩ := ((C64_private plusOne toySecp xprv3 xprv3_valid 9).1 c).1 hc
  have hI : ckdPrivHash plusOne toySecp xprv3 m = beBytes 32 1 ++ zeros 32 := rfl
  rw [hI] at h2
  refine ⟨c, hc, ?_, ?_, ?_⟩
  · rw [h2]; decide +kernel
  · rw [h9]; rfl
  · rw [h8]; exact hm.symm

example : ∃ t coin, xprv3.to_extended_key_string toyHashes = .ok t ∧ coin ∈ all_coins ∧
    SameVersions coin xprv3.key.coin ∧ bip32_key_from_string toyHashes toySecp t = .ok (.priv (withCoin xprv3 coin)) :=
  C65_private toyHashes toySecp xprv3 xprv3_valid (by decide) (by decide +kernel)

example : ∃ p, xprv3.public_key toySecp = .ok p ∧ XpubValid p :=
  ⟨_, BIP32PrivateKey.public_key_ok toySecp xprv3 xprv3_valid,
    xprv3_valid.public_key (BIP32PrivateKey.public_key_ok toySecp xprv3 xprv3_valid)⟩

example : bip32_build_chain_string [1, 2 ^ 31 + 2, 2 ^ 31 + 3, 0] = .ok "m/1/2'/3'/0".toList := by decide +kernel
example : bip32_decompose_chain_string asciiText "m/1/2'/3'/0".toList = .ok [1, 2 ^ 31 + 2, 2 ^ 31 + 3, 0] := by
  decide +kernel
example : bip32_decompose_chain_string asciiText "m".toList = .ok [] := by decide +kernel
example : bip32_decompose_chain_string asciiText "m/".toList = .error .valueError := by decide +kernel
example : bip32_decompose_chain_string asciiText "m/2147483648".toList = .error .valueError := by decide +kernel
example : bip32_decompose_chain_string asciiText "m/1''".toList = .error .valueError := by decide +kernel

end Bitcoinx
