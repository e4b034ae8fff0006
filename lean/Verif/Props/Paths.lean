import Verif.Spec.Paths
import Verif.Props.Leak

/-! # C129: different paths lead to different keys -/

namespace Bitcoinx
open Spec

theorem derivePriv_concat (H : Hashes) (L : Secp) (u : List Int) (n : Int) (k c : BIP32PrivateKey) :
    derivePriv H L k (u ++ [n]) = .ok c ↔ ∃ a, derivePriv H L k u = .ok a ∧ a.child H L n = .ok c := by
  induction u generalizing k with
  | nil =>
    simp only [List.nil_append, derivePriv]
    cases h : k.child H L n with
    | error e =>
      constructor
      · intro q; cases q
      · rintro ⟨a, q, r⟩; cases Except.ok.inj q; rw [h] at r; cases r
    | ok d =>
      constructor
      · intro q; exact ⟨k, rfl, by rw [h]; exact q⟩
      · rintro ⟨a, q, r⟩; cases Except.ok.inj q; rw [h] at r; exact r
  | cons x u ih =>
    simp only [List.cons_append, derivePriv]
    cases h : k.child H L x with
    | error e =>
      constructor
      · intro q; cases q
      · rintro ⟨a, q, _⟩; cases q
    | ok d => exact ih d

theorem ckdMessage_inj (L : Secp) {a b : BIP32PrivateKey} (ha : XprvValid a) (hb : XprvValid b) {n m : Nat} (hn : n < 2 ^ 32)
    (hm : m < 2 ^ 32) (h : ckdMessage L a n = ckdMessage L b m) : n = m ∧ a.key.secret = b.key.secret := by
  have e : n = m := by
    by_contra hne
    exact message_ne _ _ hn hm hne h
  subst e
  refine ⟨rfl, ?_⟩
  have h := List.append_cancel_right h
  split at h
  · have h := (List.cons.inj h).2
    rwa [ha.secret, hb.secret] at h
  · have pa : secretNumber a.key • L.gen ≠ 0 := L.pub_ne a.key ha.1
    have pb : secretNumber b.key • L.gen ≠ 0 := L.pub_ne b.key hb.1
    have e := L.parse_serialize true _ pa
    rw [h, L.parse_serialize true _ pb] at e
    have e : secretNumber b.key = secretNumber a.key := gen_smul_inj L hb.1.2.2 ha.1.2.2 (Option.some.inj e)
    rw [← ha.secret, ← hb.secret, e]

/-- **C129** (paths).  Let two paths of the same length from two extended private keys lead to keys with the same secret and
chain code.  Then the paths are the same and so are secret and chain code of the two keys they start from, or there is a
collision on the way. -/
theorem C129_paths (H : Hashes) (L : Secp) (k k' : BIP32PrivateKey) (h : XprvValid k) (h' : XprvValid k') (path path' : List Int)
    (hlen : path.length = path'.length) (c c' : BIP32PrivateKey) (hc : derivePriv H L k path = .ok c)
    (hc' : derivePriv H L k' path' = .ok c') (hs : c.key.secret = c'.key.secret)
    (hcc : c.derivation.chain_code = c'.derivation.chain_code) :
    (path = path' ∧ k.key.secret = k'.key.secret ∧ k.derivation.chain_code = k'.derivation.chain_code) ∨
    PathCollision H L k k' path path' := by
  induction path using List.reverseRecOn generalizing path' c c' with
  | nil =>
    have e : path' = [] := List.length_eq_zero_iff.1 hlen.symm
    subst e
    rw [derivePriv] at hc hc'
    cases Except.ok.inj hc
    cases Except.ok.inj hc'
    exact .inl ⟨rfl, hs, hcc⟩
  | append_singleton u n ih =>
    induction path' using List.reverseRecOn with
    | nil => simp at hlen
    | append_singleton u' m _ =>
      have hl : u.length = u'.length := by simpa using hlen
      obtain ⟨a, a1, a2⟩ := (derivePriv_concat H L u n k c).1 hc
      obtain ⟨b, b1, b2⟩ := (derivePriv_concat H L u' m k' c').1 hc'
      have va := (derivePriv_spec H L u k a h a1).1
      have vb := (derivePriv_spec H L u' k' b h' b1).1
      obtain ⟨i, rfl, i0, _, _, _, _, _, _, i7, _⟩ := ((C64_private H L a va n).1 c).1 a2
      obtain ⟨j, rfl, j0, _, _, _, _, _, _, j7, _⟩ := ((C64_private H L b vb m).1 c').1 b2
      rw [i7, j7] at hcc
      by_cases he : (a.derivation.chain_code, ckdMessage L a i) = (b.derivation.chain_code, ckdMessage L b j)
      · obtain ⟨e1, e2⟩ := Prod.mk.inj he
        obtain ⟨rfl, e3⟩ := ckdMessage_inj L va vb i0 j0 e2
        rcases ih u' hl a b a1 b1 e3 e1 with ⟨rfl, q⟩ | ⟨v, v', x, y, p, q, r1, r2, r⟩
        · exact .inl ⟨rfl, q⟩
        · exact .inr ⟨v, v', x, y, p, q, r1.trans (List.prefix_append _ _), r2.trans (List.prefix_append _ _), r⟩
      · exact .inr ⟨u, u', i, j, a, b, List.prefix_refl _, List.prefix_refl _, hl, a1, b1, he, hcc⟩

/-- **C129** (wallets).  If keys derived from two seeds for a supported coin have the same text as extended keys, then the seeds and the
paths are the same, or two different seeds have the same HMAC, or there is a collision on the way. -/
theorem C129_wallets (H : Hashes) (L : Secp) (seed seed' : Bytes) (coin coin' : Coin) (hcoin : coin ∈ all_coins)
    (hcoin' : coin' ∈ all_coins) (k k' c c' : BIP32PrivateKey) (path path' : List Int) (t : Str)
    (hk : BIP32PrivateKey.from_seed H seed coin = .ok k) (hk' : BIP32PrivateKey.from_seed H seed' coin' = .ok k')
    (hc : derivePriv H L k path = .ok c) (hc' : derivePriv H L k' path' = .ok c')
    (ht : c.to_extended_key_string H = .ok t) (ht' : c'.to_extended_key_string H = .ok t) :
    (seed = seed' ∧ path = path') ∨
    (seed ≠ seed' ∧ H.hmac_sha512 (utf8 "Bitcoin seed".toList) seed = H.hmac_sha512 (utf8 "Bitcoin seed".toList) seed') ∨
    PathCollision H L k k' path path' := by
  have v := (C85_valid H L).1 k (.seed hk)
  have v' := (C85_valid H L).1 k' (.seed hk')
  obtain ⟨_, _, s1, _, s2, s3⟩ := (C85_seed H seed coin k).1 hk
  obtain ⟨_, _, s1', _, s2', s3'⟩ := (C85_seed H seed' coin' k').1 hk'
  obtain ⟨w, w1, w2⟩ := derivePriv_spec H L path k c v hc
  obtain ⟨w', w1', w2'⟩ := derivePriv_spec H L path' k' c' v' hc'
  have d := ((C66_depth H L seed coin k c path hk hc).1).1 ⟨t, ht⟩
  have d' := ((C66_depth H L seed' coin' k' c' path' hk' hc').1).1 ⟨t, ht'⟩
  rw [s3] at w1
  rw [s3'] at w1'
  dsimp only at w1 w1'
  obtain ⟨t1, co, q1, _, _, q2⟩ := C65_private H L c w (by omega) (by rw [w2, s2]; exact hcoin)
  obtain ⟨t2, co', r1, _, _, r2⟩ := C65_private H L c' w' (by omega) (by rw [w2', s2']; exact hcoin')
  rw [ht] at q1
  rw [ht'] at r1
  cases Except.ok.inj q1
  cases Except.ok.inj r1
  rw [q2] at r2
  have e := BIP32Key.priv.inj (Except.ok.inj r2)
  have e1 := congrArg (fun k => k.key.secret) e
  have e2 := congrArg (fun k => k.derivation) e
  simp only [withCoin] at e1 e2
  rw [← e2] at w1'
  rcases C129_paths H L k k' v v' path path' (by omega) c c' hc hc' e1 (by rw [e2]) with ⟨p1, p2, p3⟩ | p
  · by_cases hs : seed = seed'
    · exact .inl ⟨hs, p1⟩
    · refine .inr (.inl ⟨hs, ?_⟩)
      rw [s1, s1'] at p2
      rw [s3, s3'] at p3
      rw [← List.take_append_drop 32 (H.hmac_sha512 _ seed), ← List.take_append_drop 32 (H.hmac_sha512 _ seed'), p2]
      exact congrArg _ p3
  · exact .inr (.inr p)

/-- Two paths to the same secret and chain code, where HMAC is constant: what `C129_paths` asks for. -/
example : ∃ c c', derivePriv plusOne toySecp xprv3 [1] = .ok c ∧ derivePriv plusOne toySecp xprv3 [2] = .ok c' ∧
    c.key.secret = c'.key.secret ∧ c.derivation.chain_code = c'.derivation.chain_code := by
  obtain ⟨c, h1, h2⟩ := plusOne_child 1 (by norm_num)
  obtain ⟨c', h1', h2'⟩ := plusOne_child 2 (by norm_num)
  obtain ⟨_, _, _, _, _, _, _, _, _, h7, _⟩ := ((C64_private plusOne toySecp xprv3 xprv3_valid _).1 c).1 h1
  obtain ⟨_, _, _, _, _, _, _, _, _, h7', _⟩ := ((C64_private plusOne toySecp xprv3 xprv3_valid _).1 c').1 h1'
  refine ⟨c, c', (derivePriv_concat _ _ [] 1 _ _).2 ⟨_, rfl, h1⟩, (derivePriv_concat _ _ [] 2 _ _).2 ⟨_, rfl, h1'⟩,
    by rw [h2, h2'], ?_⟩
  rw [h7, h7']
  rfl

/-- Two seeds with the same text, where HMAC is constant: what `C129_wallets` asks for. -/
example : ∃ k t, BIP32PrivateKey.from_seed plusOne [1] Bitcoin = .ok k ∧ BIP32PrivateKey.from_seed plusOne [2] Bitcoin = .ok k ∧
    derivePriv plusOne toySecp k [] = .ok k ∧ k.to_extended_key_string plusOne = .ok t := by
  have hk : ∃ k, BIP32PrivateKey.from_seed plusOne [1] Bitcoin = .ok k := by
    refine ⟨{ key := { secret := beBytes 32 1, compressed := true, coin := Bitcoin }, derivation := { chain_code := zeros 32, n := 0, depth := 0, parent_fingerprint := [0, 0, 0, 0] } },
      (C85_seed plusOne [1] Bitcoin _).2 ?_⟩
    have hI : plusOne.hmac_sha512 (utf8 "Bitcoin seed".toList) [1] = beBytes 32 1 ++ zeros 32 := rfl
    rw [hI]
    refine ⟨by decide +kernel, by decide +kernel, by decide +kernel, ?_, ?_, ?_⟩
    · dsimp only
    · dsimp only
    · rw [List.drop_left' (by simp)]
  obtain ⟨k, hk⟩ := hk
  obtain ⟨t, ht⟩ := ((C66_depth plusOne toySecp [1] Bitcoin k k [] hk rfl).1).2 (by decide)
  exact ⟨k, t, hk, hk, rfl, ht⟩

end Bitcoinx
