import Verif.Lemmas.CashDecode
import Verif.Lemmas.CashPoly

/-! # Properties of cash addresses: C49 to C52 -/

namespace Bitcoinx

open Spec cashaddr

/-! ## Letter case -/

theorem ascii_cases (P : Char → Prop) (h : ∀ n < 128, P (Char.ofNat n)) (c : Char)
    (hc : c.toNat < 128) : P c := by
  have := h c.toNat hc
  rwa [Char.ofNat_toNat] at this

theorem toLower_of_not_upper (c : Char) (h : ¬ c.isUpper) : c.toLower = c := by
  unfold Char.toLower
  unfold Char.isUpper at h
  split_ifs with h1
  · exfalso
    apply h
    simp only [Bool.and_eq_true, decide_eq_true_eq]
    exact h1
  · rfl

theorem lower_upper (c : Char) (hc : c.toNat < 128) (h : ¬ c.isUpper) : c.toUpper.toLower = c :=
  ascii_cases (fun c => ¬ c.isUpper = true → c.toUpper.toLower = c) (by decide +kernel) c hc h

theorem upper_upper (c : Char) (hc : c.toNat < 128) : c.toUpper.toUpper = c.toUpper :=
  ascii_cases (fun c => c.toUpper.toUpper = c.toUpper) (by decide +kernel) c hc

theorem upper_ascii (c : Char) (hc : c.toNat < 128) : c.toUpper.toNat < 128 :=
  ascii_cases (fun c => c.toUpper.toNat < 128) (by decide +kernel) c hc

theorem lower_ne_upper (c : Char) (hc : c.toNat < 128) (h : c.isLower) : c.toUpper ≠ c :=
  ascii_cases (fun c => c.isLower = true → c.toUpper ≠ c) (by decide +kernel) c hc h

theorem not_upper_of_fixed (c : Char) (hc : c.toNat < 128) (h : c.toLower = c) :
    ¬ c.isUpper = true :=
  ascii_cases (fun c => c.toLower = c → ¬ c.isUpper = true) (by decide +kernel) c hc h

theorem cashChar_props : ∀ d < 32, (cashAlphabet.getD d '?').toNat < 128 ∧
    ¬ (cashAlphabet.getD d '?').isUpper = true := by decide +kernel

theorem cashText_plain (pre : Str) (syms : Bytes) (hp : CashPrefix pre)
    (hs : ∀ d ∈ syms, d.toNat < 32) :
    ∀ c ∈ cashText pre syms, c.toNat < 128 ∧ ¬ c.isUpper = true := by
  intro c hc
  unfold cashText at hc
  rcases List.mem_append.mp hc with hc | hc
  · have := hp.2 c hc
    exact ⟨by omega, this.2.2.2⟩
  · rcases List.mem_cons.mp hc with rfl | hc
    · decide
    · obtain ⟨d, hd, rfl⟩ := List.mem_map.mp hc
      exact cashChar_props d.toNat (hs d hd)

theorem map_id_of {f : Char → Char} {s : Str} (h : ∀ c ∈ s, f c = c) : s.map f = s := by
  induction s with
  | nil => rfl
  | cons c s ih =>
    rw [List.map_cons, h c (by simp), ih (fun x hx => h x (by simp [hx]))]

theorem lower_plain (C : PyCase) (s : Str) (h : ∀ c ∈ s, c.toNat < 128 ∧ ¬ c.isUpper = true) :
    C.lower s = s := by
  rw [C.lower_ascii s (fun c hc => (h c hc).1)]
  exact map_id_of (fun c hc => toLower_of_not_upper c (h c hc).2)

/-! ## Encodings of the specification and of the module -/

theorem prefix_expand_eq (pre : Str) :
    (prefix_expand pre).map (·.toNat) = pre.map (·.toNat % 32) ++ [0] := by
  unfold prefix_expand
  rw [List.map_append, List.map_map]
  congr 1
  apply List.map_congr_left
  intro c _
  exact ofNat_and31 c.toNat

theorem prefix_expand_lt (pre : Str) : ∀ d ∈ prefix_expand pre, d.toNat < 32 := by
  intro d hd
  unfold prefix_expand at hd
  rcases List.mem_append.mp hd with hd | hd
  · obtain ⟨c, _, rfl⟩ := List.mem_map.mp hd
    rw [ofNat_and31]; omega
  · rw [List.mem_singleton.mp hd]; decide

/-- The module's checksum is the only one that the format admits. -/
theorem checksum_iff (pre : Str) (payload chk : Bytes) (hp : ∀ d ∈ payload, d.toNat < 32)
    (hl : chk.length = 8) (hc : ∀ d ∈ chk, d.toNat < 32) :
    CashValid (pre.map (·.toNat % 32) ++ 0 :: (payload ++ chk).map (·.toNat)) ↔
      chk = create_checksum pre payload := by
  rw [← polymod_zero_iff pre payload chk hl hc, polymod_valid]
  · rw [List.map_append (l₁ := prefix_expand pre), prefix_expand_eq, List.append_assoc]
    rfl
  · intro d hd
    rcases List.mem_append.mp hd with h | h
    · exact prefix_expand_lt pre d h
    · rcases List.mem_append.mp h with h | h
      · exact hp d h
      · exact hc d h

theorem isCashAddress_iff (pre : Str) (kind : Nat) (hash : Bytes) (text : Str) :
    IsCashAddress pre kind hash text ↔ CashPrefix pre ∧ kind ≤ 1 ∧ ∃ payload,
      IsCashPayload kind hash payload ∧
      text = cashText pre (payload ++ create_checksum pre payload) := by
  constructor
  · rintro ⟨h1, h2, payload, chk, h3, h4, h5, h6, h7⟩
    obtain ⟨code, pad, _, _, hlt, _⟩ := id h3
    rw [(checksum_iff pre payload chk hlt h4 h5).mp h7] at h6
    exact ⟨h1, h2, payload, h3, h6⟩
  · rintro ⟨h1, h2, payload, h3, h4⟩
    obtain ⟨code, pad, _, _, hlt, _⟩ := id h3
    exact ⟨h1, h2, payload, create_checksum pre payload, h3, create_checksum_length _ _,
      create_checksum_lt _ _, h4, (checksum_iff pre payload _ hlt (create_checksum_length _ _)
        (create_checksum_lt _ _)).mpr rfl⟩

theorem payload_length {kind : Nat} {hash p : Bytes} (h : IsCashPayload kind hash p) :
    p.length ≤ 104 := by
  obtain ⟨code, pad, h1, h2, h3, h4, h5⟩ := h
  obtain ⟨g1, g2⟩ := (cashSizes_get _ _).mp h1
  have : ∀ i < 8, cashSizes.getD i 0 ≤ 64 := by decide
  have := this code g1
  omega

theorem payload_unique {kind : Nat} {hash p p' : Bytes} (h : IsCashPayload kind hash p)
    (h' : IsCashPayload kind hash p') : p = p' := by
  obtain ⟨code, pad, h1, h2, h3, h4, h5⟩ := h
  obtain ⟨code', pad', h1', h2', h3', h4', h5'⟩ := h'
  have hc : code = code' := by
    obtain ⟨g1, g2⟩ := (cashSizes_get _ _).mp h1
    obtain ⟨g1', g2'⟩ := (cashSizes_get _ _).mp h1'
    have : ∀ i < 8, ∀ j < 8, cashSizes.getD i 0 = cashSizes.getD j 0 → i = j := by decide
    exact this code g1 code' g1' (g2.trans g2'.symm)
  have hl : p.length = p'.length := by omega
  have hpad : pad = pad' := by omega
  subst hc hpad
  exact radix_inj 5 _ _ h3 h3' hl (h5.trans h5'.symm)

/-- **C49** (packing).  The module packs a kind and a hash of an admissible size into the payload of
the format. -/
theorem C49_packing (kind : Nat) (hash : Bytes) (hk : kind < 32) (hs : hash.length ∈ cashSizes) :
    ∃ p, pack_addr_data kind hash = .ok p ∧ IsCashPayload kind hash p := by
  obtain ⟨code, hcode⟩ := List.mem_iff_getElem?.mp hs
  obtain ⟨g1, g2⟩ := (cashSizes_get _ _).mp hcode
  have hor : kind <<< 3 ||| code = 8 * kind + code := by
    rw [← Nat.shiftLeft_add_eq_or_of_lt (show code < 2 ^ 3 by omega), Nat.shiftLeft_eq]
    omega
  have hpack : pack_addr_data kind hash =
      .ok (convertbits (UInt8.ofNat (8 * kind + code) :: hash) 8 5 true) := by
    have key : ∀ i < 8, ∀ n, cashSizes.getD i 0 = n → 
        (if n ≥ 40 then ((2 : Int), 0x04) else (1, 0)) = (if i ≥ 4 then ((2 : Int), 4) else (1, 0)) ∧
        ((n : Int) - 20 * (if i ≥ 4 then 2 else 1)) / (4 * (if i ≥ 4 then 2 else 1)) = (i % 4 : Nat) ∧
        ((n : Int) - 20 * (if i ≥ 4 then 2 else 1)) % (4 * (if i ≥ 4 then 2 else 1)) = 0 ∧
        ((if i ≥ 4 then 4 else 0) ||| (i % 4)) = i := by
      intro i hi n hn
      subst hn
      revert i
      decide
    obtain ⟨k1, k2, k3, k4⟩ := key code g1 _ g2
    unfold pack_addr_data
    dsimp only
    rw [k1]
    by_cases h4 : code ≥ 4
    · simp only [h4, if_true] at k2 k3 k4 ⊢
      have c1 : ¬ (((hash.length : Int) - 20 * 2) % (4 * 2) ≠ 0 ∨
          ((hash.length : Int) - 20 * 2) / (4 * 2) < 0 ∨
          ¬ (4 ||| (((hash.length : Int) - 20 * 2) / (4 * 2)).toNat ≤ 7)) := by
        rw [k2, k3, Int.toNat_natCast, k4]
        omega
      rw [if_neg c1, k2, Int.toNat_natCast, k4, hor, if_neg (by omega)]
      rfl
    · simp only [h4, if_false] at k2 k3 k4 ⊢
      have c1 : ¬ (((hash.length : Int) - 20 * 1) % (4 * 1) ≠ 0 ∨
          ((hash.length : Int) - 20 * 1) / (4 * 1) < 0 ∨
          ¬ (0 ||| (((hash.length : Int) - 20 * 1) / (4 * 1)).toNat ≤ 7)) := by
        rw [k2, k3, Int.toNat_natCast, k4]
        omega
      rw [if_neg c1, k2, Int.toNat_natCast, k4, hor, if_neg (by omega)]
      rfl
  refine ⟨_, hpack, ?_⟩
  obtain ⟨p, h1, h2, h3, h4⟩ := convertbits_pad 8 5 (by omega) (by omega)
    (UInt8.ofNat (8 * kind + code) :: hash) (fun x _ => x.toNat_lt)
  refine ⟨code, p, hcode, h1, h3, ?_, ?_⟩
  · rw [List.length_cons] at h2; omega
  · rw [h4, radix, UInt8.toNat_ofNat', Nat.mod_eq_of_lt (by omega)]

/-- The conditions of the first half of `decode` for an address of the format. -/
theorem decode_of_text (C : PyCase) (addr pre : Str) (kind : Nat) (hash payload : Bytes)
    (hp : CashPrefix pre) (hk : kind ≤ 1) (hpay : IsCashPayload kind hash payload)
    (hlow : C.lower addr = cashText pre (payload ++ create_checksum pre payload))
    (hcase : C.lower addr = addr ∨ C.upper addr = addr) :
    decode C addr = .ok (if C.lower addr ≠ addr then C.upper pre else pre, kind, hash) := by
  obtain ⟨_, _, _, _, hlt, _⟩ := id hpay
  have h1 := (decode_payload_iff C addr (if C.lower addr ≠ addr then C.upper pre else pre)
    payload).mpr ⟨hcase, pre, hlow, hp.1, fun h => (hp.2 _ h).2.2.1 rfl,
      fun c hc => ⟨(hp.2 c hc).1, (hp.2 c hc).2.1⟩, by have := payload_length hpay; omega, hlt, rfl⟩
  rw [decode_eq, h1]
  simp only [ok_bind', (decodeTail_iff payload hlt kind hash).mpr ⟨hpay, hk⟩, pure_ok']

/-- **C49**.  `decode` inverts the encoding: a lower-case address of the format gives its prefix, kind
and hash, and the same address in upper case gives the prefix in upper case. -/
theorem C49_decode (C : PyCase) (pre : Str) (kind : Nat) (hash : Bytes) (text : Str)
    (h : IsCashAddress pre kind hash text) :
    decode C text = .ok (pre, kind, hash) ∧
      decode C (text.map Char.toUpper) = .ok (pre.map Char.toUpper, kind, hash) := by
  obtain ⟨hp, hk, payload, hpay, rfl⟩ := (isCashAddress_iff _ _ _ _).mp h
  obtain ⟨_, _, _, _, hlt, _⟩ := id hpay
  have hall : ∀ d ∈ payload ++ create_checksum pre payload, d.toNat < 32 := by
    intro d hd
    rcases List.mem_append.mp hd with h | h
    · exact hlt d h
    · exact create_checksum_lt pre payload d h
  have hplain := cashText_plain pre _ hp hall
  have hlow := lower_plain C _ hplain
  constructor
  · rw [decode_of_text C _ pre kind hash payload hp hk hpay hlow (.inl hlow)]
    simp [hlow]
  · generalize hT : cashText pre (payload ++ create_checksum pre payload) = T at hplain hlow
    have hasc : ∀ c ∈ T.map Char.toUpper, c.toNat < 128 := by
      intro c hc
      obtain ⟨x, hx, rfl⟩ := List.mem_map.mp hc
      exact upper_ascii x (hplain x hx).1
    have h1 : C.lower (T.map Char.toUpper) = T := by
      rw [C.lower_ascii _ hasc, List.map_map]
      exact map_id_of (fun c hc => lower_upper c (hplain c hc).1 (hplain c hc).2)
    have h2 : C.upper (T.map Char.toUpper) = T.map Char.toUpper := by
      rw [C.upper_ascii _ hasc, List.map_map]
      exact List.map_congr_left (fun c hc => upper_upper c (hplain c hc).1)
    have hpu : C.upper pre = pre.map Char.toUpper :=
      C.upper_ascii _ (fun c hc => by have := hp.2 c hc; omega)
    rw [decode_of_text C _ pre kind hash payload hp hk hpay (h1.trans hT.symm) (.inr h2), h1]
    by_cases hTT : T = T.map Char.toUpper
    · -- no letters at all
      have hpre : pre.map Char.toUpper = pre := by
        rw [← hT, cashText, List.map_append (l₁ := pre)] at hTT
        exact ((List.append_inj hTT (by simp)).1).symm
      simp [← hTT, hpre]
    · rw [if_pos hTT, hpu]

/-- **C49** (the module's own encoding).  Packing and checksum of the module give an address of the
format, for every admissible size. -/
theorem C49_module (C : PyCase) (pre : Str) (kind : Nat) (hash : Bytes) (hp : CashPrefix pre)
    (hk : kind ≤ 1) (hs : hash.length ∈ cashSizes) :
    ∃ p, pack_addr_data kind hash = .ok p ∧
      IsCashAddress pre kind hash (cashText pre (p ++ create_checksum pre p)) ∧
      decode C (cashText pre (p ++ create_checksum pre p)) = .ok (pre, kind, hash) := by
  obtain ⟨p, h1, h2⟩ := C49_packing kind hash (by omega) hs
  have h3 := (isCashAddress_iff pre kind hash _).mpr ⟨hp, hk, p, h2, rfl⟩
  exact ⟨p, h1, h3, (C49_decode C pre kind hash _ h3).1⟩

/-- **C50**.  What `decode` accepts in lower case is exactly the address of what it returns. -/
theorem C50_canonical (C : PyCase) (pre : Str) (kind : Nat) (hash : Bytes) (text : Str)
    (hlow : C.lower text = text) :
    decode C text = .ok (pre, kind, hash) ↔ IsCashAddress pre kind hash text := by
  refine ⟨?_, fun h => (C49_decode C pre kind hash text h).1⟩
  intro h
  rw [decode_eq] at h
  obtain ⟨⟨pre', payload⟩, h1, h⟩ := bind_eq_ok.mp h
  obtain ⟨⟨kind', hash'⟩, h2, h⟩ := bind_eq_ok.mp h
  cases h
  obtain ⟨_, p0, g1, g2, g3, g4, g5, g6, g7⟩ := (decode_payload_iff _ _ _ _).mp h1
  obtain ⟨k1, k2⟩ := (decodeTail_iff payload g6 kind hash).mp h2
  rw [hlow] at g1 g7
  simp only [ne_eq, not_true_eq_false, if_false] at g7
  subst g7
  refine (isCashAddress_iff _ _ _ _).mpr ⟨⟨g2, fun c hc => ⟨(g4 c hc).1, (g4 c hc).2, ?_, ?_⟩⟩, k2,
    payload, k1, g1⟩
  · rintro rfl; exact g3 hc
  · -- the text is ASCII, so that being its own lower case it has no capitals
    have hasc : ∀ c ∈ text, c.toNat < 128 := by
      intro c hc
      rw [g1] at hc
      rcases List.mem_append.mp hc with hc | hc
      · have := g4 c hc; omega
      · rcases List.mem_cons.mp hc with rfl | hc
        · decide
        · obtain ⟨d, hd, rfl⟩ := List.mem_map.mp hc
          refine (cashChar_props d.toNat ?_).1
          rcases List.mem_append.mp hd with h | h
          · exact g6 d h
          · exact create_checksum_lt _ _ d h
    have hmem : c ∈ text := by rw [g1]; exact List.mem_append_left _ hc
    have hfix : c.toLower = c := by
      obtain ⟨i, hi, rfl⟩ := List.getElem_of_mem hmem
      have e := congrArg (·[i]?) (C.lower_ascii text hasc)
      simp only [hlow, List.getElem?_map, List.getElem?_eq_getElem hi, Option.map_some] at e
      exact (Option.some.inj e).symm
    exact not_upper_of_fixed c (hasc c hmem) hfix

/-- **C50** (uniqueness).  No two lower-case addresses decode to the same triple. -/
theorem C50_unique (C : PyCase) (text text' : Str) (r : Str × Nat × Bytes)
    (hlow : C.lower text = text) (hlow' : C.lower text' = text')
    (h : decode C text = .ok r) (h' : decode C text' = .ok r) : text = text' := by
  have key : ∀ t, C.lower t = t → decode C t = .ok r →
      ∃ p, IsCashPayload r.2.1 r.2.2 p ∧ t = cashText r.1 (p ++ create_checksum r.1 p) := by
    intro t hl h
    rw [decode_eq] at h
    obtain ⟨⟨pre', payload⟩, h1, h⟩ := bind_eq_ok.mp h
    obtain ⟨⟨kind', hash'⟩, h2, h⟩ := bind_eq_ok.mp h
    cases h
    obtain ⟨_, p0, g1, g2, g3, g4, g5, g6, g7⟩ := (decode_payload_iff _ _ _ _).mp h1
    obtain ⟨k1, k2⟩ := (decodeTail_iff payload g6 kind' hash').mp h2
    rw [hl] at g1 g7
    simp only [ne_eq, not_true_eq_false, if_false] at g7
    subst g7
    exact ⟨payload, k1, g1⟩
  obtain ⟨p, h1, e1⟩ := key text hlow h
  obtain ⟨p', h2, e2⟩ := key text' hlow' h'
  rw [e1, e2, payload_unique h1 h2]

/-! ## Error detection -/

theorem charsetFind_append (a b : Str) : charsetFind (a ++ b) =
    (do let x ← charsetFind a
        let y ← charsetFind b
        return x ++ y) := by
  induction a with
  | nil =>
    rw [List.nil_append, charsetFind, pure_ok', ok_bind']
    cases charsetFind b <;> rfl
  | cons c a ih =>
    by_cases hc : c ∈ CHARSET
    · simp only [List.cons_append, charsetFind, hc, if_true, ih]
      cases charsetFind a with
      | error e => rfl
      | ok x => cases charsetFind b <;> rfl
    · simp only [List.cons_append, charsetFind, hc, if_false]
      rfl

/-- The checksum differs for texts that differ in a window of eight. -/
theorem decode_window (C : PyCase) (addr addr' pre a w w' z : Str) (hcol : ':' ∉ pre)
    (h1 : C.lower addr = pre ++ ':' :: (a ++ w ++ z))
    (h2 : C.lower addr' = pre ++ ':' :: (a ++ w' ++ z))
    (hl : w.length = w'.length) (hl8 : w.length ≤ 8) (hne : w ≠ w')
    (hok : ∃ r, decode C addr = .ok r) : decode C addr' = .error .valueError := by
  obtain ⟨r, hok⟩ := hok
  rw [decode_eq] at hok
  obtain ⟨⟨pre1, payload⟩, hd, _⟩ := bind_eq_ok.mp hok
  obtain ⟨_, p0, g1, g2, g3, g4, g5, g6, g7⟩ := (decode_payload_iff _ _ _ _).mp hd
  have hsame : ∀ (p0 : Str) (s : Bytes) (x : Str), ':' ∉ p0 →
      pre ++ ':' :: x = cashText p0 s → pre = p0 ∧ x = s.map cashChar := by
    intro p0 s x hc he
    have e1 := splitColon_append pre x hcol
    rw [he, cashText, splitColon_append _ _ hc] at e1
    have := Option.some.inj e1
    exact ⟨(congrArg Prod.fst this).symm, (congrArg Prod.snd this).symm⟩
  obtain ⟨rfl, hx⟩ := hsame p0 _ _ g3 (h1.symm.trans g1)
  cases hd' : decode_payload C addr' with
  | error e =>
    rw [decode_eq, hd', decode_payload_error C addr' e hd']
    rfl
  | ok r' =>
    exfalso
    obtain ⟨pre2, payload'⟩ := r'
    obtain ⟨_, p0', g1', g2', g3', g4', g5', g6', g7'⟩ := (decode_payload_iff _ _ _ _).mp hd'
    obtain ⟨rfl, hx'⟩ := hsame p0' _ _ g3' (h2.symm.trans g1')
    have hall : ∀ d ∈ payload ++ create_checksum pre payload, d.toNat < 32 := by
      intro d hd
      rcases List.mem_append.mp hd with h | h
      · exact g6 d h
      · exact create_checksum_lt _ _ d h
    have hall' : ∀ d ∈ payload' ++ create_checksum pre payload', d.toNat < 32 := by
      intro d hd
      rcases List.mem_append.mp hd with h | h
      · exact g6' d h
      · exact create_checksum_lt _ _ d h
    have f1 := charsetFind_map _ hall
    have f2 := charsetFind_map _ hall'
    rw [← hx, charsetFind_append, charsetFind_append] at f1
    rw [← hx', charsetFind_append, charsetFind_append] at f2
    obtain ⟨aw, faw, f1⟩ := bind_eq_ok.mp f1
    obtain ⟨da, fa, faw⟩ := bind_eq_ok.mp faw
    obtain ⟨dw, fw, faw⟩ := bind_eq_ok.mp faw
    obtain ⟨dz, fz, f1⟩ := bind_eq_ok.mp f1
    obtain ⟨aw', faw', f2⟩ := bind_eq_ok.mp f2
    obtain ⟨da', fa', faw'⟩ := bind_eq_ok.mp faw'
    obtain ⟨dw', fw', faw'⟩ := bind_eq_ok.mp faw'
    obtain ⟨dz', fz', f2⟩ := bind_eq_ok.mp f2
    rw [fa] at fa'
    rw [fz] at fz'
    have := Except.ok.inj fa'
    subst this
    have := Except.ok.inj fz'
    subst this
    have := Except.ok.inj faw
    subst this
    have := Except.ok.inj faw'
    subst this
    have q1 := (polymod_zero_iff pre payload _ (create_checksum_length _ _)
      (create_checksum_lt _ _)).mpr rfl
    have q2 := (polymod_zero_iff pre payload' _ (create_checksum_length _ _)
      (create_checksum_lt _ _)).mpr rfl
    rw [← Except.ok.inj f1] at q1
    rw [← Except.ok.inj f2] at q2
    obtain ⟨ew, lw⟩ := charsetFind_ok fw
    obtain ⟨ew', lw'⟩ := charsetFind_ok fw'
    have r1 := Nat.xor_eq_zero_iff.mp q1
    have r2 := Nat.xor_eq_zero_iff.mp q2
    have hrun : run 1 (prefix_expand pre ++ (da ++ dw ++ dz)) =
        run 1 (prefix_expand pre ++ (da ++ dw' ++ dz)) := r1.trans r2.symm
    simp only [List.append_assoc] at hrun
    rw [run_append, run_append _ da, run_append 1 (prefix_expand pre), run_append _ da] at hrun
    refine run_window_ne (run_lt (run_lt (show 1 < 2 ^ 40 by norm_num) _) da) dw dw' dz lw lw'
      ?_ ?_ ?_ hrun
    · have := congrArg List.length ew
      have := congrArg List.length ew'
      simp only [List.length_map] at *
      omega
    · have := congrArg List.length ew
      simp only [List.length_map] at *
      omega
    · rintro rfl
      exact hne (ew.trans ew'.symm)

/-- **C51**.  If a lower-case address decodes and its prefix contains a letter, then replacing up to
eight consecutive characters after the separator by any others, letters of either case or not,
makes `decode` raise `ValueError`. -/
theorem C51_window (C : PyCase) (pre a w w' z : Str)
    (hlow : C.lower (pre ++ ':' :: (a ++ w ++ z)) = pre ++ ':' :: (a ++ w ++ z))
    (hcol : ':' ∉ pre) (hletter : ∃ c ∈ pre, c.isLower)
    (hok : ∃ r, decode C (pre ++ ':' :: (a ++ w ++ z)) = .ok r)
    (hl : w'.length = w.length) (hl8 : w.length ≤ 8) (hne : w' ≠ w) :
    decode C (pre ++ ':' :: (a ++ w' ++ z)) = .error .valueError := by
  by_cases hlow' : C.lower (pre ++ ':' :: (a ++ w' ++ z)) = pre ++ ':' :: (a ++ w' ++ z)
  · exact decode_window C _ _ pre a w w' z hcol hlow hlow' hl.symm hl8 (Ne.symm hne) hok
  · have hasc : ∀ c ∈ pre, c.toNat < 128 := by
      obtain ⟨r, hok⟩ := hok
      rw [decode_eq] at hok
      obtain ⟨⟨pre1, payload⟩, hd, _⟩ := bind_eq_ok.mp hok
      obtain ⟨_, p0, g1, g2, g3, g4, g5, g6, g7⟩ := (decode_payload_iff _ _ _ _).mp hd
      rw [hlow] at g1
      have e1 := splitColon_append pre (a ++ w ++ z) hcol
      rw [g1, cashText, splitColon_append _ _ g3] at e1
      have e2 := congrArg Prod.fst (Option.some.inj e1)
      dsimp only at e2
      subst e2
      intro c hc
      have := g4 c hc
      omega
    have hup : C.upper (pre ++ ':' :: (a ++ w' ++ z)) ≠ pre ++ ':' :: (a ++ w' ++ z) := by
      obtain ⟨b', hb⟩ := C.upper_prefix pre (':' :: (a ++ w' ++ z)) hasc
      rw [hb]
      intro he
      have e1 := (List.append_inj he (by simp)).1
      obtain ⟨c, hc, hcl⟩ := hletter
      obtain ⟨i, hi, rfl⟩ := List.getElem_of_mem hc
      have e2 : (pre.map Char.toUpper)[i]? = pre[i]? := by rw [e1]
      rw [List.getElem?_map, List.getElem?_eq_getElem hi] at e2
      exact lower_ne_upper _ (hasc _ hc) hcl (Option.some.inj e2)
    rw [decode_eq]
    unfold decode_payload
    dsimp only
    rw [if_pos ⟨hlow', hup⟩]
    rfl

/-- **C51** (either case).  The same for any two addresses whose lower-case forms differ, and only
inside a window of eight characters after the separator. -/
theorem C51_any_case (C : PyCase) (addr addr' pre a w w' z : Str) (hcol : ':' ∉ pre)
    (h1 : C.lower addr = pre ++ ':' :: (a ++ w ++ z))
    (h2 : C.lower addr' = pre ++ ':' :: (a ++ w' ++ z))
    (hl : w.length = w'.length) (hl8 : w.length ≤ 8) (hne : w ≠ w')
    (hok : ∃ r, decode C addr = .ok r) : decode C addr' = .error .valueError :=
  decode_window C addr addr' pre a w w' z hcol h1 h2 hl hl8 hne hok

/-! ## Exceptions -/

/-- **C52** (partial).  Whatever the string, `decode` raises only `ValueError`, except that it raises
`IndexError` for a prefix followed by nothing but its checksum.  The full statement (nothing but
`ValueError`) is false: `C52_index_error`. -/
theorem C52_errors_partial (C : PyCase) (text : Str) (e : Err) (h : decode C text = .error e) :
    e = .valueError ∨ (e = .indexError ∧ ∃ pre, pre ≠ [] ∧ ':' ∉ pre ∧
      (∀ c ∈ pre, 33 ≤ c.toNat ∧ c.toNat ≤ 126) ∧
      C.lower text = cashText pre (create_checksum pre [])) := by
  rw [decode_eq] at h
  rcases bind_eq_error.mp h with h | ⟨⟨pre, payload⟩, h1, h⟩
  · exact .inl (decode_payload_error C text e h)
  · obtain ⟨_, p0, g1, g2, g3, g4, g5, g6, g7⟩ := (decode_payload_iff _ _ _ _).mp h1
    rcases bind_eq_error.mp h with h | ⟨⟨kind, hash⟩, _, h⟩
    · rcases decodeTail_error payload g6 e h with he | ⟨he, rfl⟩
      · exact .inl he
      · exact .inr ⟨he, p0, g2, g3, g4, g1⟩
    · cases h

/-- **C52** fails: for every prefix there is an eight-character payload, its checksum, on which
`decode` raises `IndexError`. -/
theorem C52_index_error (C : PyCase) (pre : Str) (hp : CashPrefix pre) :
    decode C (cashText pre (create_checksum pre [])) = .error .indexError := by
  have hlow : C.lower (cashText pre (create_checksum pre [])) = cashText pre (create_checksum pre []) :=
    lower_plain C _ (cashText_plain pre _ hp (create_checksum_lt pre []))
  have h1 := (decode_payload_iff C (cashText pre (create_checksum pre [])) pre []).mpr
    ⟨.inl hlow, pre, hlow, hp.1, fun h => (hp.2 _ h).2.2.1 rfl,
      fun c hc => ⟨(hp.2 c hc).1, (hp.2 c hc).2.1⟩, by simp, by simp, by simp [hlow]⟩
  rw [decode_eq, h1]
  rfl

/-- Exactly when `decode` raises `IndexError`: for text of one case that is a prefix followed by nothing
but its checksum. -/
theorem C52_exact (C : PyCase) (text : Str) :
    decode C text = .error .indexError ↔ (C.lower text = text ∨ C.upper text = text) ∧
      ∃ pre, pre ≠ [] ∧ ':' ∉ pre ∧ (∀ c ∈ pre, 33 ≤ c.toNat ∧ c.toNat ≤ 126) ∧
        C.lower text = cashText pre (create_checksum pre []) := by
  constructor
  · intro h
    rcases C52_errors_partial C text _ h with h0 | ⟨_, hp⟩
    · cases h0
    · refine ⟨?_, hp⟩
      rw [decode_eq] at h
      rcases bind_eq_error.mp h with h | ⟨⟨pre, payload⟩, h1, -⟩
      · cases decode_payload_error C text _ h
      · exact ((decode_payload_iff _ _ _ _).mp h1).1
  · rintro ⟨hc, pre, h1, h2, h3, h4⟩
    have hd := (decode_payload_iff C text (if C.lower text ≠ text then C.upper pre else pre) []).mpr
      ⟨hc, pre, h4, h1, h2, h3, by simp, by simp, rfl⟩
    rw [decode_eq, hd]
    rfl

/-! ## Sizes that are packed but not decoded -/

/-- A remark on C49: the module also packs hashes of 36, 72, 80, 88 and 96 bytes, to texts which it
then refuses. -/
theorem C49_oversize (C : PyCase) (pre : Str) (kind : Nat) (hash : Bytes) (hp : CashPrefix pre)
    (hk : kind ≤ 1) (hs : hash.length ∈ [36, 72, 80, 88, 96]) :
    ∃ p, pack_addr_data kind hash = .ok p ∧
      decode C (cashText pre (p ++ create_checksum pre p)) = .error .valueError := by
  have hpack : ∃ v, pack_addr_data kind hash = .ok (convertbits (v :: hash) 8 5 true) := by
    have hk' : kind = 0 ∨ kind = 1 := by omega
    unfold pack_addr_data
    simp only [List.mem_cons, List.not_mem_nil, or_false] at hs
    rcases hs with h | h | h | h | h <;> rcases hk' with rfl | rfl <;> rw [h] <;> exact ⟨_, rfl⟩
  obtain ⟨v, hpack⟩ := hpack
  obtain ⟨pad, h1, h2, h3, h4⟩ := convertbits_pad 8 5 (by omega) (by omega) (v :: hash)
    (fun x _ => x.toNat_lt)
  refine ⟨_, hpack, ?_⟩
  generalize convertbits (v :: hash) 8 5 true = p at h2 h3 h4
  have hall : ∀ d ∈ p ++ create_checksum pre p, d.toNat < 32 := by
    intro d hd
    rcases List.mem_append.mp hd with h | h
    · exact h3 d h
    · exact create_checksum_lt pre p d h
  have hlow := lower_plain C _ (cashText_plain pre _ hp hall)
  have hcol : ':' ∉ pre := fun h => (hp.2 _ h).2.2.1 rfl
  have h36 : 36 ≤ hash.length := by
    simp only [List.mem_cons, List.not_mem_nil, or_false] at hs; omega
  rw [List.length_cons] at h2
  have hsame : ∀ (p0 : Str) (q : Bytes), ':' ∉ p0 → (∀ d ∈ q, d.toNat < 32) →
      C.lower (cashText pre (p ++ create_checksum pre p)) = cashText p0 (q ++ create_checksum p0 q) →
      p = q := by
    intro p0 q h0 hq he
    rw [hlow] at he
    have e1 := splitColon_append pre ((p ++ create_checksum pre p).map cashChar) hcol
    rw [← cashText, he, cashText, splitColon_append _ _ h0] at e1
    have e2 := congrArg Prod.snd (Option.some.inj e1)
    have e3 := map_cashChar_inj _ _ (by
      intro d hd
      rcases List.mem_append.mp hd with h | h
      · exact hq d h
      · exact create_checksum_lt _ _ d h) hall e2
    have hl := congrArg List.length e3
    simp only [List.length_append, create_checksum_length] at hl
    exact ((List.append_inj e3 (by omega)).1).symm
  cases hd : decode C (cashText pre (p ++ create_checksum pre p)) with
  | ok r =>
    exfalso
    rw [decode_eq] at hd
    obtain ⟨⟨pre', payload⟩, d1, hd⟩ := bind_eq_ok.mp hd
    obtain ⟨⟨kind', hash'⟩, d2, hd⟩ := bind_eq_ok.mp hd
    obtain ⟨_, p0, g1, g2, g3, g4, g5, g6, g7⟩ := (decode_payload_iff _ _ _ _).mp d1
    obtain ⟨⟨code, pad', k1, k2, k3, k4, k5⟩, _⟩ := (decodeTail_iff payload g6 kind' hash').mp d2
    have := hsame p0 payload g3 g6 g1
    subst this
    have hl : hash'.length = hash.length := by omega
    rw [hl] at k1
    have : ∀ n ∈ [36, 72, 80, 88, 96], ∀ i < 8, cashSizes.getD i 0 ≠ n := by decide
    obtain ⟨q1, q2⟩ := (cashSizes_get _ _).mp k1
    exact this _ hs _ q1 q2
  | error e =>
    rcases C52_errors_partial C _ e hd with rfl | ⟨_, p0, q1, hc0, q2, q3⟩
    · rfl
    · exfalso
      have := hsame p0 [] hc0 (by simp) q3
      subst this
      simp at h2
      omega

/-! ## Examples -/

/-- A known address decodes. -/
example : decode asciiCase "bitcoincash:qpm2qsznhks23z7629mms6s4cwef74vcwvy22gdx6a".toList =
    .ok ("bitcoincash".toList, 0,
      (fromhex "76a04053bda0a88bda5177b86a15c3b29f559873".toList).toOption.getD []) := by decide +kernel

/-- And in upper case. -/
example : decode asciiCase "BITCOINCASH:QPM2QSZNHKS23Z7629MMS6S4CWEF74VCWVY22GDX6A".toList =
    .ok ("BITCOINCASH".toList, 0,
      (fromhex "76a04053bda0a88bda5177b86a15c3b29f559873".toList).toOption.getD []) := by decide +kernel

/-- The hypotheses of C49 are met by all eight sizes; here the largest. -/
example : CashPrefix "bchtest".toList ∧ (zeros 64).length ∈ cashSizes := by
  refine ⟨⟨by decide, by decide⟩, by decide⟩

/-- One wrong character. -/
example : decode asciiCase "bitcoincash:qpm2qsznhks23z7629mms6s4cwef74vcwvy22gdx6q".toList =
    .error .valueError := by decide +kernel

/-- The `IndexError` on a concrete string. -/
example : decode asciiCase (cashText "bitcoincash".toList (create_checksum "bitcoincash".toList [])) =
    .error .indexError := by decide +kernel

end Bitcoinx
