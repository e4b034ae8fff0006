import Verif.Props.OpenFile
import Verif.Props.ChainExample
import Mathlib.Data.List.Nodup

/-! # Examples for C101 and C102: files, and a collection with 65536 chains -/

namespace Bitcoinx
open Spec

/-- The file that holds these headers from height 0 on. -/
def fileOf (hs : List Bytes) : Bytes := [8, 0, 0, 0] ++ leBytes 4 hs.length ++ hs.flatten

theorem flatten_length80 {hs : List Bytes} (h : ∀ x ∈ hs, x.length = 80) : hs.flatten.length = 80 * hs.length := by
  induction hs with
  | nil => rfl
  | cons x xs ih =>
    rw [List.flatten_cons, List.length_append, h x (by simp), ih (fun y hy => h y (by simp [hy])),
      List.length_cons]
    omega

theorem slice_flatten {hs : List Bytes} (h : ∀ x ∈ hs, x.length = 80) {i : Nat} {x : Bytes}
    (hx : hs[i]? = some x) : slice hs.flatten (80 * i) (80 * i + 80) = x := by
  induction hs generalizing i with
  | nil => simp at hx
  | cons y ys ih =>
    have hy := h y (by simp)
    match i with
    | 0 =>
      simp only [List.getElem?_cons_zero, Option.some.injEq] at hx
      subst hx
      rw [List.flatten_cons, slice_append_left _ _ _ _ (by omega), slice, List.take_of_length_le (by omega)]
      rfl
    | i + 1 =>
      rw [List.getElem?_cons_succ] at hx
      rw [List.flatten_cons, slice_append_right _ _ _ _ (by omega), hy,
        show 80 * (i + 1) - 80 = 80 * i by omega, show 80 * (i + 1) + 80 - 80 = 80 * i + 80 by omega]
      exact ih (fun z hz => h z (by simp [hz])) hx

theorem fileOf_head (hs : List Bytes) : ([8, 0, 0, 0] ++ leBytes 4 hs.length : Bytes).length = 8 := by
  rw [List.length_append, leBytes_length]; rfl

theorem fileOf_storedAt {hs : List Bytes} (h : ∀ x ∈ hs, x.length = 80) {i : Nat} {x : Bytes}
    (hx : hs[i]? = some x) : storedAt (fileOf hs) i = x := by
  rw [storedAt, fileOf, slice_append_right _ _ _ _ (by rw [fileOf_head]; omega), fileOf_head,
    show 8 + 80 * i - 8 = 80 * i by omega, show 8 + 80 * i + 80 - 8 = 80 * i + 80 by omega, slice_flatten h hx]

theorem fileOf_layout {hs : List Bytes} (h : ∀ x ∈ hs, x.length = 80) (hlt : hs.length < 2 ^ 32) :
    HeadersFile (fileOf hs) hs.length hs.length := by
  have h8 := fileOf_head hs
  have h4 : slice ([8, 0, 0, 0] ++ leBytes 4 hs.length : Bytes) 4 8 = leBytes 4 hs.length := by
    rw [slice_append_right _ _ _ _ (by simp)]
    rw [slice, List.take_of_length_le (by rw [leBytes_length]; simp)]
    rfl
  refine ⟨?_, ?_, ?_, le_refl _, fun i h1 h2 => by omega⟩
  · rw [fileOf, slice_append_left _ _ _ _ (by omega), slice_append_left _ _ _ _ (by simp)]; rfl
  · rw [fileOf, slice_append_left _ _ _ _ (by omega), h4, leValue_leBytes _ _ (by norm_num at hlt ⊢; exact hlt)]
  · rw [fileOf, List.length_append, h8, flatten_length80 h]

theorem fileOf_holds {cp : CheckPoint} {S : Bytes → Prop} {R : List Bytes} (h0 : cp.height = 0)
    (hl : ∀ x ∈ cp.raw_header :: R, x.length = 80) (hlt : R.length + 1 < 2 ^ 32)
    (hR : ∀ x ∈ R, x ≠ cp.raw_header ∧ S x) (hnd : R.Nodup) :
    Holds cp S (fileOf (cp.raw_header :: R)) R := by
  refine ⟨⟨_, _, fileOf_layout hl (by simpa using hlt), by rw [h0]; simp, ?_⟩, ?_, hR, hnd⟩
  · rw [h0, storedFrom]
    apply List.ext_getElem?
    intro i
    rw [List.getElem?_map]
    rcases Nat.lt_or_ge i R.length with hi | hi
    · rw [List.getElem?_range' (by simpa using hi)]
      have e := List.getElem?_eq_getElem hi
      rw [e]
      simp only [Option.map_some, Option.some.injEq]
      exact (fileOf_storedAt hl (by
        rw [show 0 + 1 + 1 * i = i + 1 by omega, List.getElem?_cons_succ]; exact e)).symm
    · rw [List.getElem?_eq_none hi, List.getElem?_eq_none (by simpa using hi)]; rfl
  · rw [h0]; exact fileOf_storedAt hl rfl

namespace ChainExample

theorem file_holds : Holds cp S (fileOf [raw0, raw2, raw1, raw3]) [raw2, raw1, raw3] := by
  have hl : ∀ x ∈ [raw0, raw2, raw1, raw3], x.length = 80 := by decide +kernel
  have hne : ∀ x ∈ [raw2, raw1, raw3], x ≠ raw0 := by decide +kernel
  refine fileOf_holds rfl hl (by decide) (fun x hx => ⟨hne x hx, ?_⟩) (by decide +kernel)
  simp only [List.mem_cons, List.not_mem_nil, or_false] at hx
  rcases hx with rfl | rfl | rfl <;> simp [S]

theorem bits_cp : ∃ t, bits_to_target (bitsOf cp.raw_header) = .ok t := by
  have : (match bits_to_target (bitsOf cp.raw_header) with | .ok _ => true | .error _ => false) = true := by
    decide +kernel
  cases h : bits_to_target (bitsOf cp.raw_header) with
  | ok t => exact ⟨t, rfl⟩
  | error e => rw [h] at this; cases this

theorem bits_all : ∀ x ∈ [raw1, raw2, raw3], ∃ t, bits_to_target (bitsOf x) = .ok t := by
  have h : ∀ x ∈ [raw1, raw2, raw3], (match bits_to_target (bitsOf x) with | .ok _ => true | .error _ => false) = true := by
    decide +kernel
  intro x hx
  have := h x hx
  cases h : bits_to_target (bitsOf x) with
  | ok t => exact ⟨t, rfl⟩
  | error e => rw [h] at this; cases this

/-- C101: a file with a fork, in an order in which `connect` was not called here. -/
example : ∃ s, Headers.from_file toyHashes Bitcoin (some (fileOf [raw0, raw2, raw1, raw3])) cp =
      (some (fileOf [raw0, raw2, raw1, raw3]), .ok s) ∧ s.chains.length = 2 ∧ s.len = .ok 4 := by
  have hfit : ∀ a x b, [raw2, raw1, raw3] = a ++ x :: b → Fits toyHashes cp a x := by
    intro a x b h
    match a with
    | [] =>
      simp only [List.nil_append, List.cons.injEq] at h
      obtain ⟨rfl, _⟩ := h
      exact ⟨by decide +kernel, by decide +kernel, bits_all _ (by simp), by decide +kernel⟩
    | [y] =>
      simp only [List.cons_append, List.nil_append, List.cons.injEq] at h
      obtain ⟨rfl, rfl, _⟩ := h
      exact ⟨by decide +kernel, by decide +kernel, bits_all _ (by simp), by decide +kernel⟩
    | [y, z] =>
      simp only [List.cons_append, List.nil_append, List.cons.injEq] at h
      obtain ⟨rfl, rfl, rfl, _⟩ := h
      exact ⟨by decide +kernel, by decide +kernel, bits_all _ (by simp), by decide +kernel⟩
    | y :: z :: w :: a =>
      simp at h
  obtain ⟨s, h1, _, _, h2, h3, _⟩ := C101_opens (coin := Bitcoin) env bits_cp file_holds hfit
  refine ⟨s, h1, ?_, h2⟩
  rw [h3]; decide +kernel

/-- C101: the same headers with one before its predecessor. -/
example : Headers.from_file toyHashes Bitcoin (some (fileOf [raw0, raw1, raw3, raw2])) cp =
    (some (fileOf [raw0, raw1, raw3, raw2]), .error .missingHeader) := by
  have hl : ∀ x ∈ [raw0, raw1, raw3, raw2], x.length = 80 := by decide +kernel
  have hne : ∀ x ∈ [raw1, raw3, raw2], x ≠ raw0 := by decide +kernel
  have hf : Holds cp S (fileOf [raw0, raw1, raw3, raw2]) [raw1, raw3, raw2] := by
    refine fileOf_holds rfl hl (by decide) (fun x hx => ⟨hne x hx, ?_⟩) (by decide +kernel)
    simp only [List.mem_cons, List.not_mem_nil, or_false] at hx
    rcases hx with rfl | rfl | rfl <;> simp [S]
  refine C101_refused env bits_cp hf [raw1] [raw2] raw3 _ rfl ?_ (.missing (.inr (by decide +kernel)))
  intro a x b h
  match a with
  | [] =>
    simp only [List.nil_append, List.cons.injEq] at h
    obtain ⟨rfl, _⟩ := h
    exact ⟨by decide +kernel, by decide +kernel, bits_all _ (by simp), by decide +kernel⟩
  | y :: a => simp at h

/-- A successor of the genesis header with bits that are not the required ones. -/
@[irreducible] def bad : Bytes :=
  [1, 0, 0, 0] ++ header_hash toyHashes raw0 ++ List.replicate 32 5 ++ [1, 2, 3, 4] ++
    [0xff, 0xff, 0x7f, 0x20] ++ [5, 0, 0, 0]
def S' (x : Bytes) : Prop := x ∈ [raw0, bad]

theorem env' : Env toyHashes cp S' := by
  refine ⟨?_, ?_, env.cp_length, env.cp_ne, List.mem_cons_self, env.cp_height, env.nonzero⟩
  · have : ∀ a ∈ [raw0, bad], ∀ b ∈ [raw0, bad],
        header_hash toyHashes a = header_hash toyHashes b → a = b := by decide +kernel
    intro a b ha hb; exact this a ha b hb
  · show ∀ a ∈ [raw0, bad], header_hash toyHashes a ≠ header_prev_hash cp.raw_header
    decide +kernel

end ChainExample

open ChainExample in
/-- The rules are not checked when a file is opened: there is a header that `connect` refuses for its
bits in a new collection, and that is found in the collection opened from a file that holds it. -/
theorem C101_unchecked : ∃ (f x : Bytes) (s s0 : Headers) (hd : Header) (c : Nat),
    Reachable toyHashes Bitcoin cp S' s0 [cp.raw_header] ∧ s0.connect x = (s0, .error .incorrectBits) ∧
      Headers.from_file toyHashes Bitcoin (some f) cp = (some f, .ok s) ∧
      s.lookup (header_hash toyHashes x) = .ok (hd, c) ∧ hd.raw = x := by
  have hl : ∀ x ∈ [raw0, bad], x.length = 80 := by decide +kernel
  have hS : S' bad := by simp [S']
  have hf : Holds cp S' (fileOf [raw0, bad]) [bad] := by
    refine fileOf_holds rfl hl (by decide) (fun x hx => ?_) (by decide +kernel)
    simp only [List.mem_singleton] at hx
    subst hx
    exact ⟨by decide +kernel, hS⟩
  have hbit : bits_to_target (bitsOf bad) = .ok (0x7fffff <<< (8 * 29)) := by decide +kernel
  obtain ⟨s, h1, _, _, _, _, h5, _⟩ := C101_opens (coin := Bitcoin) env' bits_cp hf (by
    intro a x b h
    match a with
    | [] =>
      simp only [List.nil_append, List.cons.injEq] at h
      obtain ⟨rfl, _⟩ := h
      exact ⟨by decide +kernel, by decide +kernel, ⟨_, hbit⟩, by decide +kernel⟩
    | y :: a => simp at h)
  obtain ⟨hd, c, h6, h7⟩ := h5 bad (by simp)
  have hw : header_work cp.raw_header = .ok (workOf cp.raw_header) := workOf_of_bits env.cp_length bits_cp
  obtain ⟨s0, a1, hI, a3, a4, a5, a6⟩ := fresh_ok (coin := Bitcoin) (file := none) env' hw (by simp) (by simp)
  refine ⟨_, bad, s, s0, hd, c, .start (by simp) (by simp) a1, ?_, h1, h6, h7⟩
  have hbl := hl bad (by simp)
  have hck := hI.connect_check_new (p := 0) hS hbl rfl (by rw [a3]; decide +kernel)
    (by simp only [List.mem_singleton]; rintro M rfl; decide +kernel)
  have hreq := easy_required hI a4 (p := 0) rfl (by rw [a5]; decide) (b := 0x1d00ffff) (by decide +kernel)
  have hb : (mkHeader s0.H bad ((nodeHeight s0.checkpoint ⟨cp.raw_header, [0], 0⟩ + 1 : Nat) : Int)).bits = 0x207fffff := by
    have h1 := (mkHeader_fields (H := s0.H) ((nodeHeight s0.checkpoint ⟨cp.raw_header, [0], 0⟩ + 1 : Nat) : Int) hbl).2.2.2.2.2
    have h2 : header_bits bad = .ok 0x207fffff := by decide +kernel
    rw [h2] at h1
    exact (Except.ok.inj h1).symm
  simp only [hreq, ok_bind', hb] at hck
  have hne : (0x207fffff : Int) ≠ 0x1d00ffff := by decide
  simp only [ne_eq, hne, not_false_iff, if_true] at hck
  simp only [Headers.connect, hck]

/-! ## A collection with 65536 chains -/

namespace ManyChains
open ChainExample (raw0 cp bits_cp)

/-- 32 bytes: the last four of a header, then a one. -/
def digest (x : Bytes) : Bytes :=
  if x.length = 80 then x.drop 76 ++ [1] ++ zeros 27 else (x ++ zeros 32).take 32

theorem digest_length (x : Bytes) : (digest x).length = 32 := by
  unfold digest
  split
  · simp [zeros]; omega
  · simp [zeros]

def hashes : Hashes := { toyHashes with sha256 := digest, sha256_length := digest_length }

theorem hash_eq {x : Bytes} (hx : x.length = 80) : header_hash hashes x = x.drop 76 ++ [1] ++ zeros 27 := by
  have h1 : digest x = x.drop 76 ++ [1] ++ zeros 27 := by rw [digest, if_pos hx]
  have h2 : (digest x).length = 32 := digest_length x
  show digest (digest x) = _
  rw [← h1]
  conv_lhs => rw [digest]
  rw [if_neg (by omega), List.take_append_of_le_length (by omega), List.take_of_length_le (by omega)]

/-- Different successors of the genesis header. -/
def sib (i : Nat) : Bytes :=
  [1, 0, 0, 0] ++ header_hash hashes raw0 ++ zeros 32 ++ [1, 2, 3, 4] ++ [0xff, 0xff, 0, 0x1d] ++ leBytes 4 i

theorem raw0_hash : (header_hash hashes raw0).length = 32 := header_hash_length _ _

theorem sib_length (i : Nat) : (sib i).length = 80 := by
  simp [sib, raw0_hash, zeros]

theorem sib_drop (i : Nat) : (sib i).drop 76 = leBytes 4 i := by
  rw [sib, List.drop_append_of_le_length (by simp [raw0_hash, zeros]), List.drop_of_length_le (by simp [raw0_hash, zeros]),
    List.nil_append]

theorem sib_prev (i : Nat) : header_prev_hash (sib i) = header_hash hashes raw0 := by
  have h32 := raw0_hash
  rw [header_prev_hash]
  simp only [sib, List.append_assoc]
  rw [slice_append_right _ _ _ _ (by simp), slice_append_left _ _ _ _ (by simp [h32])]
  simp only [slice, List.length_cons, List.length_nil, Nat.zero_add, Nat.reduceAdd, Nat.reduceSub, List.drop_zero]
  exact List.take_of_length_le (by omega)

theorem sib_bits (i : Nat) : bitsOf (sib i) = 0x1d00ffff := by
  have h32 := raw0_hash
  have : slice (sib i) 72 76 = [0xff, 0xff, 0, 0x1d] := by
    have e : sib i = ([1, 0, 0, 0] ++ header_hash hashes raw0 ++ zeros 32 ++ [1, 2, 3, 4]) ++
        ([0xff, 0xff, 0, 0x1d] ++ leBytes 4 i) := by simp [sib]
    have hl : ([1, 0, 0, 0] ++ header_hash hashes raw0 ++ zeros 32 ++ [1, 2, 3, 4] : Bytes).length = 72 := by
      simp [h32, zeros]
    rw [e, slice_append_right _ _ _ _ (by omega), hl, slice_append_left _ _ _ _ (by simp)]
    rfl
  rw [bitsOf, this]; decide

theorem sib_inj {i j : Nat} (hi : i < 2 ^ 32) (hj : j < 2 ^ 32) (h : leBytes 4 i = leBytes 4 j) : i = j := by
  have := congrArg leValue h
  rwa [leValue_leBytes _ _ (by norm_num at hi ⊢; exact hi), leValue_leBytes _ _ (by norm_num at hj ⊢; exact hj)] at this

def S (x : Bytes) : Prop := x = raw0 ∨ ∃ i, i < 70000 ∧ x = sib i

theorem raw0_length : raw0.length = 80 := ChainExample.env.cp_length
theorem raw0_drop : raw0.drop 76 = leBytes 4 2083236893 := by decide +kernel

/-- The four bytes of the nonce of a header decide which it is. -/
theorem mem_nonce {x : Bytes} (h : S x) : x.length = 80 ∧ ∃ i, i < 2 ^ 32 ∧ x.drop 76 = leBytes 4 i ∧
    ((x = raw0 ∧ i = 2083236893) ∨ (x = sib i ∧ i < 70000)) := by
  rcases h with rfl | ⟨i, hi, rfl⟩
  · exact ⟨raw0_length, _, by norm_num, raw0_drop, .inl ⟨rfl, rfl⟩⟩
  · exact ⟨sib_length i, i, by omega, sib_drop i, .inr ⟨rfl, hi⟩⟩

theorem hash_value {x : Bytes} (h : S x) : 0 < hash_to_value (header_hash hashes x) ∧
    hash_to_value (header_hash hashes x) < 2 ^ 40 := by
  obtain ⟨hl, i, hi, h1, _⟩ := mem_nonce h
  have hz : ∀ n, leValue (zeros n) = 0 := by
    intro n
    induction n with
    | zero => rfl
    | succ n ih =>
      have : zeros (n + 1) = 0 :: zeros n := rfl
      rw [this, leValue, ih]; rfl
  rw [hash_to_value, le_bytes_to_int_eq, hash_eq hl, h1, List.append_assoc, leValue_append, leBytes_length,
    leValue_append, hz, leValue_leBytes _ _ (by norm_num at hi ⊢; exact hi)]
  have : leValue [1] = 1 := rfl
  rw [this]
  norm_num at hi ⊢
  omega

theorem env : Env hashes cp S := by
  refine ⟨?_, ?_, ChainExample.env.cp_length, ChainExample.env.cp_ne, .inl rfl, ChainExample.env.cp_height,
    by decide +kernel⟩
  · intro a b ha hb hab
    obtain ⟨la, i, hi, h1, h2⟩ := mem_nonce ha
    obtain ⟨lb, j, hj, h3, h4⟩ := mem_nonce hb
    rw [hash_eq la, hash_eq lb, List.append_assoc, List.append_assoc] at hab
    have hd := List.append_inj_left' hab rfl
    rw [h1, h3] at hd
    have := sib_inj hi hj hd
    subst this
    rcases h2 with ⟨rfl, h2⟩ | ⟨rfl, h2⟩ <;> rcases h4 with ⟨rfl, h4⟩ | ⟨rfl, h4⟩ <;> first | rfl | omega
  · intro x hx hc
    have h0 : hash_to_value (header_prev_hash cp.raw_header) = 0 := by decide +kernel
    have := (hash_value hx).1
    rw [hc, h0] at this
    omega

def many (n : Nat) : List Bytes := (List.range n).map sib

theorem many_succ (n : Nat) : many (n + 1) = many n ++ [sib n] := by
  simp [many, List.range_succ]

theorem forks_many (n : Nat) : forks (many n) = n - 1 := by
  induction n with
  | zero => rfl
  | succ n ih =>
    rw [many_succ, forks_snoc, ih]
    by_cases hn : n = 0
    · subst hn; simp [many]
    · rw [if_pos ⟨sib 0, by simp [many]; exact ⟨0, by omega, rfl⟩, by rw [sib_prev, sib_prev]⟩]
      omega

theorem many_split {n : Nat} {a b : List Bytes} {x : Bytes} (h : many n = a ++ x :: b) :
    a = many a.length ∧ x = sib a.length ∧ a.length < n := by
  have hl := congrArg List.length h
  simp only [many, List.length_map, List.length_range, List.length_append, List.length_cons] at hl
  have hx := congrArg (fun l => l[a.length]?) h
  simp only [many, List.getElem?_map, List.getElem?_range (show a.length < n by omega), Option.map_some,
    List.getElem?_append_right (le_refl a.length), Nat.sub_self, List.getElem?_cons_zero, Option.some.injEq] at hx
  have ha := congrArg (fun l => l.take a.length) h
  simp only [many, ← List.map_take, List.take_range, List.take_left] at ha
  refine ⟨?_, hx.symm, by omega⟩
  rw [many]
  rw [min_eq_left (by omega)] at ha
  exact ha.symm

theorem bits_target : bits_to_target 0x1d00ffff = .ok (0xffff <<< (8 * 26)) := by decide +kernel

theorem sib_ne (i : Nat) : sib i ≠ zeros 80 := by
  intro h
  have := congrArg (fun l => l[0]?) h
  simp [sib, zeros] at this

theorem sib_ne_raw0 {i : Nat} (hi : i < 70000) : sib i ≠ raw0 := by
  intro h
  have := congrArg (fun l => l.drop 76) h
  simp only [sib_drop, raw0_drop] at this
  have := sib_inj (by omega) (by norm_num) this
  omega

theorem fits (n : Nat) (hn : n ≤ 65536) : ∀ a x b, many n = a ++ x :: b → Fits hashes cp a x := by
  intro a x b h
  obtain ⟨h1, rfl, h3⟩ := many_split h
  refine ⟨sib_ne _, ⟨raw0, List.mem_cons_self, (sib_prev _).symm⟩, ⟨_, by rw [sib_bits]; exact bits_target⟩, ?_⟩
  have : a ++ [sib a.length] = many (a.length + 1) := by
    rw [many_succ]; congr 1
  rw [this, forks_many]
  omega

theorem holds (n : Nat) (hn : n ≤ 65536) : Holds cp S (fileOf (cp.raw_header :: many n)) (many n) := by
  have hm : ∀ x ∈ many n, ∃ i, i < n ∧ x = sib i := by
    intro x hx
    simp only [many, List.mem_map, List.mem_range] at hx
    obtain ⟨i, hi, rfl⟩ := hx
    exact ⟨i, hi, rfl⟩
  refine fileOf_holds rfl ?_ ?_ ?_ ?_
  · intro x hx
    rcases List.mem_cons.1 hx with rfl | hx
    · exact raw0_length
    · obtain ⟨i, _, rfl⟩ := hm x hx
      exact sib_length i
  · simp only [many, List.length_map, List.length_range]
    have : (2 : Nat) ^ 32 = 4294967296 := by norm_num
    omega
  · intro x hx
    obtain ⟨i, hi, rfl⟩ := hm x hx
    exact ⟨sib_ne_raw0 (by omega), .inr ⟨i, by omega, rfl⟩⟩
  · refine (List.nodup_map_iff_inj_on List.nodup_range).2 ?_
    intro i hi j hj h
    simp only [List.mem_range] at hi hj
    have := congrArg (fun l => l.drop 76) h
    simp only [sib_drop] at this
    have e : (2 : Nat) ^ 32 = 4294967296 := by norm_num
    exact sib_inj (by omega) (by omega) this

/-- C102: a collection with 65536 chains, and a header that obeys the rules and begins one more. -/
example : ∃ s A raw prev pc hd, Reachable hashes Bitcoin cp S s A ∧ 65536 ≤ s.chains.length ∧
    (∀ n, s.len = .ok n → n + 1 < 2 ^ 32) ∧ S raw ∧ raw.length = 80 ∧ raw ∉ A ∧
    s.lookup (header_prev_hash raw) = .ok (prev, pc) ∧
    (∃ y ∈ A, header_prev_hash y = header_prev_hash raw) ∧
    deserialized_header hashes raw (prev.height + 1) = .ok hd ∧ Verdict s hd pc (.ok ()) := by
  obtain ⟨n, hn⟩ : ∃ n, n = 65536 := ⟨_, rfl⟩
  obtain ⟨s, h1, h2, _, h4, h5, _⟩ := C101_opens (coin := Bitcoin) env bits_cp (holds n (by omega)) (fits n (by omega))
  obtain ⟨T, hI, e1, e2, e3, hA⟩ := reachable_inv env h2
  have hroot := hI.good.root_node
  have hcpr : s.checkpoint.raw_header = raw0 := by rw [e3]; rfl
  have hfound := hI.toDesc.lookup_found hI.env.inj hroot
  have h0 : nodeHeight s.checkpoint ⟨s.checkpoint.raw_header, [0], 0⟩ = 0 := by rw [e3]; rfl
  have hreq := easy_required hI e2 hroot (by rw [h0]; omega) (b := 0x1d00ffff) (by
    simp only [hcpr]; decide +kernel)
  rw [h0] at hfound hreq
  simp only [hcpr, e1] at hfound hreq
  have hraw0 : header_hash hashes raw0 = header_prev_hash (sib n) := (sib_prev n).symm
  have hf := mkHeader_fields (H := hashes) 0 raw0_length
  have hd := mkHeader_fields (H := hashes) 1 (sib_length n)
  have hSn : S (sib n) := .inr ⟨n, by omega, rfl⟩
  refine ⟨s, _, sib n, _, _, mkHeader hashes (sib n) 1, h2, ?_, ?_, hSn, sib_length n, ?_,
    by rw [← hraw0]; exact hfound, ⟨sib 0, ?_, by rw [sib_prev, sib_prev]⟩, ?_, ?_⟩
  · rw [h5, forks_many]; omega
  · intro m hm
    rw [h4] at hm
    simp only [Except.ok.injEq, many, List.length_map, List.length_range] at hm
    have : cp.height = 0 := rfl
    have e : (2 : Int) ^ 32 = 4294967296 := by norm_num
    omega
  · intro hc
    rcases List.mem_cons.1 hc with hc | hc
    · exact sib_ne_raw0 (by omega) hc
    · simp only [many, List.mem_map, List.mem_range] at hc
      obtain ⟨i, hi, hc⟩ := hc
      have := congrArg (fun l => l.drop 76) hc
      simp only [sib_drop] at this
      have e : (2 : Nat) ^ 32 = 4294967296 := by norm_num
      have := sib_inj (by omega) (by omega) this
      omega
  · refine List.mem_cons_of_mem _ ?_
    simp only [many, List.mem_map, List.mem_range]
    exact ⟨0, by omega, rfl⟩
  · have h0 : (mkHeader hashes raw0 ((0 : Nat) : Int)).height = 0 := hf.2.1
    rw [h0]; exact mkHeader_ok _ (sib_length n)
  · have hb : (mkHeader hashes (sib n) 1).bits = 0x1d00ffff := by
      have := hd.2.2.2.2.2
      rw [header_bits_eq (sib_length n), sib_bits] at this
      exact (Except.ok.inj this).symm
    refine .accept (0xffff <<< (8 * 26)) ?_ ?_ ?_
    · rw [hb, hd.2.1]; exact hreq _
    · rw [hb]; exact bits_target
    · rw [hd.2.2.1]
      have := (hash_value hSn).2
      rw [hash_to_value, le_bytes_to_int_eq] at this
      have e : (2 : Nat) ^ 40 ≤ 0xffff <<< (8 * 26) := by decide +kernel
      omega

end ManyChains
end Bitcoinx
