import Verif.Lemmas.Tree
import Verif.Spec.Chain

/-! # `Headers` objects and the trees they represent -/

namespace Bitcoinx
open Spec

/-! ## `find`, dictionaries, arrays -/

theorem bytesFindLoop_some {b key : Bytes} {n i j : Nat} (h : bytesFindLoop b key n i = some j) :
    i ≤ j ∧ j < i + n ∧ slice b j (j + key.length) = key := by
  induction n generalizing i with
  | zero => simp [bytesFindLoop] at h
  | succ n ih =>
    unfold bytesFindLoop at h
    split at h
    · next hc => cases h; exact ⟨by omega, by omega, hc⟩
    · have := ih h; exact ⟨by omega, by omega, this.2.2⟩

theorem bytesFindLoop_exists {b key : Bytes} {n i j : Nat} (hi : i ≤ j) (hj : j < i + n)
    (h : slice b j (j + key.length) = key) :
    ∃ j', bytesFindLoop b key n i = some j' ∧ j' ≤ j := by
  induction n generalizing i with
  | zero => omega
  | succ n ih =>
    unfold bytesFindLoop
    split
    · exact ⟨i, rfl, hi⟩
    · next hc =>
      have : i ≠ j := by rintro rfl; exact hc h
      exact ih (by omega) (by omega)

theorem bytesFind_some {b key : Bytes} {start j : Nat} (h : bytesFind b key start = some j)
    (hk : key ≠ []) : start ≤ j ∧ j < b.length ∧ slice b j (j + key.length) = key := by
  obtain ⟨h1, h2, h3⟩ := bytesFindLoop_some h
  refine ⟨h1, ?_, h3⟩
  have := congrArg List.length h3
  have hpos := List.length_pos_iff.2 hk
  simp only [slice, List.length_drop, List.length_take] at this
  omega

theorem bytesFind_none {b key : Bytes} {start : Nat} (h : b.length + 1 ≤ start) :
    bytesFind b key start = none := by
  unfold bytesFind
  rw [show b.length + 1 - start = 0 by omega]; rfl

theorem dictGet_mem {κ ν : Type} [DecidableEq κ] {d : List (κ × ν)} {k : κ} {v : ν}
    (h : dictGet d k = some v) : (k, v) ∈ d := by
  unfold dictGet at h
  simp only [Option.map_eq_some_iff] at h
  obtain ⟨⟨k', v'⟩, h1, h2⟩ := h
  have h3 := List.find?_some h1
  simp only [decide_eq_true_eq] at h3
  simp only at h2
  subst h2; subst h3
  exact List.mem_of_find?_eq_some h1

theorem mem_dictSet {κ ν : Type} [DecidableEq κ] {d : List (κ × ν)} {k : κ} {v : ν} {e : κ × ν}
    (h : e ∈ dictSet d k v) : e = (k, v) ∨ e ∈ d := by
  induction d with
  | nil => simp [dictSet] at h; exact .inl h
  | cons x xs ih =>
    obtain ⟨k', v'⟩ := x
    unfold dictSet at h
    split at h
    · rcases List.mem_cons.1 h with h | h
      · exact .inl h
      · exact .inr (List.mem_cons_of_mem _ h)
    · rcases List.mem_cons.1 h with h | h
      · exact .inr (by rw [h]; exact List.mem_cons_self)
      · rcases ih h with h | h
        · exact .inl h
        · exact .inr (List.mem_cons_of_mem _ h)

theorem arrayAppend_ok4 {a : List Nat} {v : Nat} (h : v < 2 ^ 32) :
    arrayAppend 4 a (v : Int) = .ok (a ++ [v]) := by
  unfold arrayAppend
  have h1 : (v : Int) < 256 ^ 4 := by
    have : (256 : Int) ^ 4 = ((2 ^ 32 : Nat) : Int) := by norm_num
    rw [this]; exact_mod_cast h
  rw [if_pos ⟨by omega, h1⟩]; simp

theorem arrayAppend_ok2 {a : List Nat} {v : Nat} (h : v < 65536) :
    arrayAppend 2 a (v : Int) = .ok (a ++ [v]) := by
  unfold arrayAppend
  have h1 : (v : Int) < 256 ^ 2 := by
    have : (256 : Int) ^ 2 = ((65536 : Nat) : Int) := by norm_num
    rw [this]; exact_mod_cast h
  rw [if_pos ⟨by omega, h1⟩]; simp

theorem slice_chunks {α : Type} (f : α → Bytes) (T : List α) (hf : ∀ x ∈ T, (f x).length = 4)
    (i : Nat) (x : α) (hx : T[i]? = some x) : slice (T.flatMap f) (4 * i) (4 * i + 4) = f x := by
  induction T generalizing i with
  | nil => simp at hx
  | cons y ys ih =>
    have hy := hf y (by simp)
    simp only [List.flatMap_cons]
    match i with
    | 0 =>
      simp at hx; subst hx
      rw [show 4 * 0 = 0 from rfl, show 0 + 4 = 4 from rfl, slice_append_left _ _ _ _ (by omega)]
      simp only [slice, List.drop_zero]
      rw [← hy, List.take_length]
    | i + 1 =>
      rw [slice_append_right _ _ _ _ (by omega)]
      rw [hy, show 4 * (i + 1) - 4 = 4 * i by omega, show 4 * (i + 1) + 4 - 4 = 4 * i + 4 by omega]
      exact ih (fun x hx => hf x (by simp [hx])) i (by simpa using hx)

theorem chunks_length {α : Type} (f : α → Bytes) (T : List α) (hf : ∀ x ∈ T, (f x).length = 4) :
    (T.flatMap f).length = 4 * T.length := by
  induction T with
  | nil => rfl
  | cons y ys ih =>
    simp only [List.flatMap_cons, List.length_append, List.length_cons, hf y (by simp),
      ih (fun x hx => hf x (by simp [hx]))]
    omega

theorem mapE_pure {α β : Type} {f : α → Res β} {g : α → β} {l : List α}
    (h : ∀ x ∈ l, f x = .ok (g x)) : mapE f l = .ok (l.map g) := by
  induction l with
  | nil => rfl
  | cons x xs ih =>
    simp only [mapE, h x (by simp), ih (fun y hy => h y (by simp [hy])), ok_bind', pure_ok',
      List.map_cons]

theorem header_hash_length (H : Hashes) (raw : Bytes) : (header_hash H raw).length = 32 :=
  H.sha256_length _

theorem header_prev_hash_length {raw : Bytes} (h : raw.length = 80) :
    (header_prev_hash raw).length = 32 := by
  rw [header_prev_hash, slice_length _ _ _ (by omega)]

/-! ## Objects and trees -/

/-- The object holds the tree. -/
structure Desc (S : Bytes → Prop) (s : Headers) (T : Tree) : Prop where
  good : Good s.H s.checkpoint S T s.chains
  heights : s.heights = T.map (nodeHeight s.checkpoint)
  chain_indices : s.chain_indices = T.map Node.chain
  short : s.short_hashes = T.flatMap (fun N => (header_hash s.H N.raw).take 4)
  cache : ∀ e ∈ s.cache, ∃ (i : Nat) (N : Node), T[i]? = some N ∧
    e = (header_hash s.H N.raw, mkHeader s.H N.raw (nodeHeight s.checkpoint N), N.chain)
  stored : ∀ (i : Nat) (N : Node), T[i]? = some N →
    s.storage.get ((i : Int) + s.checkpoint.height) = .ok N.raw

namespace Desc
variable {S : Bytes → Prop} {s : Headers} {T : Tree}

theorem valid (h : Desc S s T) {i : Nat} {N : Node} (hN : T[i]? = some N) : Valid S N.raw :=
  (h.good.node i N hN).valid

theorem chunk_length (h : Desc S s T) : ∀ N ∈ T, ((header_hash s.H N.raw).take 4).length = 4 := by
  intro N _
  rw [List.length_take, header_hash_length]; rfl

theorem short_length (h : Desc S s T) : s.short_hashes.length = 4 * T.length := by
  rw [h.short, chunks_length _ _ h.chunk_length]

theorem short_slice (h : Desc S s T) {i : Nat} {N : Node} (hN : T[i]? = some N) :
    slice s.short_hashes (4 * i) (4 * i + 4) = (header_hash s.H N.raw).take 4 := by
  rw [h.short]
  exact slice_chunks _ T h.chunk_length i N hN

theorem slow_found (h : Desc S s T) (hi : Inj s.H S) {i : Nat} {N : Node} (hN : T[i]? = some N)
    (fuel start : Nat) (h1 : start ≤ 4 * i) (h2 : 4 * i < start + fuel) :
    s.header_index_slow_loop (header_hash s.H N.raw) fuel start = .ok (N.raw, i) := by
  induction fuel generalizing start with
  | zero => omega
  | succ fuel ih =>
    have hkl : ((header_hash s.H N.raw).take 4).length = 4 := h.chunk_length N (List.mem_of_getElem? hN)
    have hlen := h.short_length
    have hil := getElem?_lt hN
    obtain ⟨j, hj1, hj2⟩ := bytesFindLoop_exists (b := s.short_hashes)
      (key := (header_hash s.H N.raw).take 4) (n := s.short_hashes.length + 1 - start) (i := start)
      (j := 4 * i) h1 (by omega) (by rw [hkl]; exact h.short_slice hN)
    have hj3 := bytesFindLoop_some hj1
    have hfind : bytesFind s.short_hashes ((header_hash s.H N.raw).take 4) start = some j := hj1
    have hrec : start < 4 * i → s.header_index_slow_loop (header_hash s.H N.raw) fuel (start + 1) =
        .ok (N.raw, i) := fun hlt => ih (start + 1) (by omega) (by omega)
    simp only [Headers.header_index_slow_loop, hfind]
    by_cases hm : j % 4 = 0
    · simp only [hm, if_true]
      obtain ⟨M, hM⟩ : ∃ M, T[j / 4]? = some M := ⟨_, List.getElem?_eq_getElem (by omega)⟩
      simp only [h.stored _ M hM]
      by_cases heq : header_hash s.H M.raw = header_hash s.H N.raw
      · have hraw := hi _ _ (h.valid hM).mem (h.valid hN).mem heq
        have := h.good.raw_inj _ _ M N hM hN hraw
        simp only [hraw, if_true, this]
      · simp only [heq, if_false]
        apply hrec
        by_contra hc
        have e : j = 4 * i := by omega
        rw [e, show 4 * i / 4 = i by omega, hN] at hM
        cases hM
        exact heq rfl
    · simp only [hm, if_false]
      apply hrec
      omega

theorem slow_missing (h : Desc S s T) {hash : Bytes} (hne : hash ≠ [])
    (hno : ∀ (i : Nat) (N : Node), T[i]? = some N → header_hash s.H N.raw ≠ hash)
    (fuel start : Nat) (hf : start + fuel = s.short_hashes.length + 2)
    (hs : start ≤ s.short_hashes.length + 1) :
    s.header_index_slow_loop hash fuel start = .error .missingHeader := by
  induction fuel generalizing start with
  | zero => omega
  | succ fuel ih =>
    have hlen := h.short_length
    have hkey : hash.take 4 ≠ [] := by
      intro hc
      have h1 := congrArg List.length hc
      have h2 := List.length_pos_iff.2 hne
      rw [List.length_take, List.length_nil] at h1
      omega
    simp only [Headers.header_index_slow_loop]
    cases hfind : bytesFind s.short_hashes (hash.take 4) start with
    | none => rfl
    | some j =>
      have hj := bytesFind_some hfind hkey
      have hrec := ih (start + 1) (by omega) (by omega)
      simp only
      by_cases hm : j % 4 = 0
      · simp only [hm, if_true]
        obtain ⟨M, hM⟩ : ∃ M, T[j / 4]? = some M := ⟨_, List.getElem?_eq_getElem (by omega)⟩
        simp only [h.stored _ M hM, hno _ M hM, if_false, hrec]
      · simp only [hm, if_false, hrec]

/-- Looking up the hash of an accepted header. -/
theorem lookup_found (h : Desc S s T) (hi : Inj s.H S) {i : Nat} {N : Node} (hN : T[i]? = some N) :
    s.lookup (header_hash s.H N.raw) =
      .ok (mkHeader s.H N.raw (nodeHeight s.checkpoint N), N.chain) := by
  unfold Headers.lookup
  cases hc : dictGet s.cache (header_hash s.H N.raw) with
  | some v =>
    obtain ⟨j, M, hM, he⟩ := h.cache _ (dictGet_mem hc)
    simp only [Prod.mk.injEq] at he
    have hraw := hi _ _ (h.valid hN).mem (h.valid hM).mem he.1
    have := h.good.raw_inj _ _ N M hN hM hraw
    subst this
    rw [hN] at hM; cases hM
    simp only
    rw [he.2]
  | none =>
    have hil := getElem?_lt hN
    have hlen := h.short_length
    have e : s.header_index_slow (header_hash s.H N.raw) = .ok (N.raw, i) :=
      h.slow_found hi hN _ 0 (by omega) (by omega)
    have e1 : s.heights[i]? = some (nodeHeight s.checkpoint N) := by
      rw [h.heights, List.getElem?_map, hN]; rfl
    have e2 : s.chain_indices[i]? = some N.chain := by
      rw [h.chain_indices, List.getElem?_map, hN]; rfl
    have e3 := (h.good.node i N hN).chain
    simp only [e, ok_bind', e1, mkHeader_ok _ (h.valid hN).length, e2, e3, if_true, pure_ok']

/-- Looking up any other hash. -/
theorem lookup_missing (h : Desc S s T) {hash : Bytes} (hne : hash ≠ [])
    (hno : ∀ (i : Nat) (N : Node), T[i]? = some N → header_hash s.H N.raw ≠ hash) :
    s.lookup hash = .error .missingHeader := by
  unfold Headers.lookup
  cases hc : dictGet s.cache hash with
  | some v =>
    obtain ⟨j, M, hM, he⟩ := h.cache _ (dictGet_mem hc)
    simp only [Prod.mk.injEq] at he
    exact absurd he.1.symm (hno j M hM)
  | none =>
    have e : s.header_index_slow hash = .error .missingHeader :=
      h.slow_missing hne hno _ 0 (by omega) (by omega)
    simp only [e, error_bind']

/-- The chain of the given index, in terms of the tree. -/
theorem chain_at (h : Desc S s T) {c : Nat} {ch : Chain} (hc : s.chains[c]? = some ch) :
    ∃ (t : Nat) (N : Node) (base own : List Nat), Good.ChainIs s.H s.checkpoint T c ch t N base own :=
  h.good.chainIs c ch hc

/-- `raw_header_at_height` at heights from the checkpoint to the tip. -/
theorem raw_at (h : Desc S s T) {c : Nat} {ch : Chain} {t : Nat} {N : Node} {base own : List Nat}
    (hc : s.chains[c]? = some ch) (hci : Good.ChainIs s.H s.checkpoint T c ch t N base own)
    {k i : Nat} {M : Node} (hk : N.path[k]? = some i) (hM : T[i]? = some M) :
    s.raw_header_at_height c ((s.checkpoint.height + k : Nat) : Int) = .ok M.raw := by
  unfold Headers.raw_header_at_height Headers.header_index
  rw [h.good.header_index _ c ch t N base own hc hci (getElem?_lt hc)]
  have h1 : ¬ ((s.checkpoint.height + k : Nat) : Int) < 0 := by omega
  have h2 : ¬ ((s.checkpoint.height + k : Nat) : Int) < (s.checkpoint.height : Int) := by omega
  have h3 : (((s.checkpoint.height + k : Nat) : Int) - (s.checkpoint.height : Int)).toNat = k := by omega
  simp only [h1, h2, if_false, h3, hk, ok_bind']
  have := h.stored i M hM
  rwa [← Int.natCast_add] at this

theorem raw_below (h : Desc S s T) {c : Nat} {ch : Chain} (hc : s.chains[c]? = some ch) {ht : Nat}
    (hlt : ht < s.checkpoint.height) : s.raw_header_at_height c ht = s.storage.get ht := by
  obtain ⟨t, N, base, own, hci⟩ := h.chain_at hc
  unfold Headers.raw_header_at_height Headers.header_index
  rw [h.good.header_index _ c ch t N base own hc hci (getElem?_lt hc)]
  have h1 : ¬ (ht : Int) < 0 := by omega
  have h2 : (ht : Int) < (s.checkpoint.height : Int) := by omega
  simp only [h1, h2, if_false, if_true, ok_bind', Int.toNat_natCast]

theorem raw_neg (h : Desc S s T) {c : Nat} {ch : Chain} (hc : s.chains[c]? = some ch) {ht : Int}
    (hlt : ht < 0) : s.raw_header_at_height c ht = .error .missingHeader := by
  obtain ⟨t, N, base, own, hci⟩ := h.chain_at hc
  unfold Headers.raw_header_at_height Headers.header_index
  rw [h.good.header_index _ c ch t N base own hc hci (getElem?_lt hc)]
  simp only [hlt, if_true, error_bind']

theorem raw_above (h : Desc S s T) {c : Nat} {ch : Chain} (hc : s.chains[c]? = some ch) {ht : Int}
    (hlt : ch.height < ht) : s.raw_header_at_height c ht = .error .missingHeader := by
  obtain ⟨t, N, base, own, hci⟩ := h.chain_at hc
  have hh : ch.height = s.checkpoint.height + N.path.length - 1 := by
    rw [Chain.height, hci.first, hci.indices, hci.path]; simp; omega
  have hpos := (h.good.node t N hci.node).pos
  unfold Headers.raw_header_at_height Headers.header_index
  rw [h.good.header_index _ c ch t N base own hc hci (getElem?_lt hc)]
  have h1 : ¬ ht < 0 := by omega
  have h2 : ¬ ht < (s.checkpoint.height : Int) := by omega
  have h3 : N.path[(ht - (s.checkpoint.height : Int)).toNat]? = none := by
    rw [List.getElem?_eq_none]; omega
  simp only [h1, h2, if_false, h3, error_bind']

theorem height_eq (h : Desc S s T) {c : Nat} {ch : Chain} {t : Nat} {N : Node} {base own : List Nat}
    (hci : Good.ChainIs s.H s.checkpoint T c ch t N base own) :
    ch.height = nodeHeight s.checkpoint N ∧ ch.tip.height = ch.height := by
  have hpos := (h.good.node t N hci.node).pos
  have hh : ch.height = nodeHeight s.checkpoint N := by
    rw [Chain.height, hci.first, hci.indices, nodeHeight, hci.path]
    rw [hci.path] at hpos
    simp only [List.length_append, List.length_map] at *
    omega
  refine ⟨hh, ?_⟩
  rw [hh, hci.tip]
  exact (mkHeader_fields _ (h.valid hci.node).length).2.1

/-- The sum of work over a range of heights of a chain. -/
theorem chainwork_range (h : Desc S s T) {c : Nat} {ch : Chain} {t : Nat} {N : Node} {base own : List Nat}
    (hc : s.chains[c]? = some ch) (hci : Good.ChainIs s.H s.checkpoint T c ch t N base own)
    (a b : Nat) (hb : b ≤ N.path.length) :
    s.chainwork_range c ((s.checkpoint.height + a : Nat) : Int) ((s.checkpoint.height + b : Nat) : Int) =
      .ok (totalWork T (slice N.path a b)) := by
  unfold Headers.chainwork_range ChainView.chainwork_range
  have hpt : ∀ k, k < N.path.length → ∃ i M, N.path[k]? = some i ∧ T[i]? = some M := by
    intro k hk
    have h1 : N.path[k]? = some N.path[k] := List.getElem?_eq_getElem hk
    obtain ⟨M, h2, _⟩ := h.good.path t N k _ hci.node h1
    exact ⟨_, M, h1, h2⟩
  rw [mapE_pure (g := fun (x : Int) => nodeWork T (N.path.getD (x - (s.checkpoint.height : Int)).toNat 0))]
  · simp only [ok_bind', pure_ok', totalWork]
    congr 2
    unfold pyRange
    rw [List.map_map]
    apply List.ext_getElem?
    intro k
    simp only [List.getElem?_map]
    by_cases hk : k < b - a
    · rw [List.getElem?_range (by omega)]
      have e : (slice N.path a b)[k]? = N.path[a + k]? := by
        simp only [slice, List.getElem?_drop, List.getElem?_take]
        rw [if_pos (by omega)]
      rw [e]
      obtain ⟨i, M, h1, _⟩ := hpt (a + k) (by omega)
      simp only [Option.map_some, Function.comp_apply, h1]
      rw [show (((s.checkpoint.height + a : Nat) : Int) + (k : Int) - (s.checkpoint.height : Int)).toNat =
        a + k by omega, List.getD_eq_getElem?_getD, h1]
      rfl
    · rw [List.getElem?_eq_none (by simp; omega), List.getElem?_eq_none (by simp [slice]; omega)]
      rfl
  · intro x hx
    rw [mem_pyRange] at hx
    obtain ⟨i, M, h1, h2⟩ := hpt (x - (s.checkpoint.height : Int)).toNat (by omega)
    have e : (s.view c).raw_header_at_height x = .ok M.raw := by
      have := h.raw_at hc hci h1 h2
      rwa [show ((s.checkpoint.height + (x - (s.checkpoint.height : Int)).toNat : Nat) : Int) = x by omega]
        at this
    simp only [e, ok_bind', (h.valid h2).work]
    rw [List.getD_eq_getElem?_getD, h1]
    simp [nodeWork, h2]

/-- Work up to a node of the chain. -/
theorem chainwork_to (h : Desc S s T) {c : Nat} {ch : Chain} {t : Nat} {N : Node} {base own : List Nat}
    (hc : s.chains[c]? = some ch) (hci : Good.ChainIs s.H s.checkpoint T c ch t N base own)
    (a : Nat) (ha : a ≤ N.path.length) (ht : Int)
    (hht : ht + 1 = ((s.checkpoint.height + a : Nat) : Int)) :
    s.chainwork_to_height c ht = .ok (s.checkpoint.prev_work + totalWork T (N.path.take a)) := by
  unfold Headers.chainwork_to_height
  have hpos := (h.good.node t N hci.node).pos
  obtain ⟨h1, h2⟩ := h.height_eq hci
  have e2 : ch.tip.height + 1 = ((s.checkpoint.height + N.path.length : Nat) : Int) := by
    rw [h2, h1, nodeHeight]; omega
  simp only [hc, hht, e2, h.chainwork_range hc hci a _ (le_refl _), ok_bind', pure_ok', hci.work]
  have e3 : totalWork T N.path = totalWork T (N.path.take a) + totalWork T (slice N.path a N.path.length) := by
    rw [← Good.totalWork_append]
    congr 1
    simp [slice]
  rw [e3]
  congr 1
  push_cast
  ring

/-- The tip test used by `connect` and `_read_header`. -/
theorem tip_iff (h : Desc S s T) (hi : Inj s.H S) {p : Nat} {P : Node} (hp : T[p]? = some P) {ch : Chain}
    (hc : s.chains[P.chain]? = some ch) :
    ch.tip.hash = header_hash s.H P.raw ↔ ¬ HasChild T P := by
  obtain ⟨t, N, base, own, hci⟩ := h.chain_at hc
  rw [hci.tip, (mkHeader_fields _ (h.valid hci.node).length).2.2.1]
  constructor
  · intro he
    have hraw := hi _ _ (h.valid hci.node).mem (h.valid hp).mem he
    have := h.good.raw_inj _ _ N P hci.node hp hraw
    subst this
    have := hci.node; rw [hp] at this; cases this
    exact hci.leaf
  · intro hl
    have := h.good.leaf_is_tip hci hp rfl hl
    subst this
    have := hci.node; rw [hp] at this; cases this
    rfl

theorem chain_exists (h : Desc S s T) {p : Nat} {P : Node} (hp : T[p]? = some P) :
    ∃ ch, s.chains[P.chain]? = some ch :=
  ⟨_, List.getElem?_eq_getElem (h.good.node p P hp).chain⟩

end Desc

theorem add_chain_tip_ok (s : Headers) (ch : Chain) (c ht : Nat) (hh : ch.tip.height = (ht : Int))
    (h1 : ht < 2 ^ 32) (h2 : c < 65536) :
    s.add_chain_tip ch c =
      ({ s with short_hashes := s.short_hashes ++ ch.tip.hash.take 4, heights := s.heights ++ [ht],
                chain_indices := s.chain_indices ++ [c],
                cache := Headers.cache_add s.cache s.chains ch.tip c }, .ok ()) := by
  have e1 : arrayAppend 4 s.heights (ht : Int) = .ok (s.heights ++ [ht]) := arrayAppend_ok4 h1
  have e2 : arrayAppend 2 s.chain_indices (c : Int) = .ok (s.chain_indices ++ [c]) :=
    arrayAppend_ok2 h2
  rw [Headers.add_chain_tip, hh, e1, e2]
  rfl

theorem cache_add_all {P : Bytes × Header × Nat → Prop} {cache : List (Bytes × Header × Nat)}
    {chains : List Chain} {header : Header} {c : Nat} (h1 : ∀ e ∈ cache, P e)
    (h2 : P (header.hash, header, c))
    (h3 : ∀ (c : Nat) (ch : Chain), chains[c]? = some ch → P (ch.tip.hash, ch.tip, c)) :
    ∀ e ∈ Headers.cache_add cache chains header c, P e := by
  have hset : ∀ e ∈ dictSet cache header.hash (header, c), P e := by
    intro e he
    rcases mem_dictSet he with rfl | he
    · exact h2
    · exact h1 e he
  unfold Headers.cache_add
  simp only
  split
  · have fold : ∀ (l : List (Chain × Nat)) (d : List (Bytes × Header × Nat)), (∀ e ∈ d, P e) →
        (∀ x ∈ l, chains[x.2]? = some x.1) →
        ∀ e ∈ l.foldl (fun cache x => dictSet cache x.1.tip.hash (x.1.tip, x.2)) d, P e := by
      intro l
      induction l with
      | nil => intro d hd _; exact hd
      | cons x xs ih =>
        intro d hd hl
        apply ih
        · intro e he
          rcases mem_dictSet he with rfl | he
          · exact h3 _ _ (hl x (by simp))
          · exact hd e he
        · intro y hy; exact hl y (by simp [hy])
    apply fold
    · intro e he; exact hset e (List.mem_of_mem_drop he)
    · intro x hx
      obtain ⟨ch, i⟩ := x
      exact List.mem_zipIdx_iff_getElem?.1 hx
  · exact hset

theorem Chain.append_ok (ch : Chain) (hd : Header) (i w : Nat) (hi : i < 2 ^ 32) (hw : hd.work = .ok w) :
    ch.append hd i = ({ ch with tip := hd, header_indices := ch.header_indices ++ [i],
                                work := ch.work + w }, .ok ()) := by
  have e1 : arrayAppend 4 ch.header_indices (i : Int) = .ok (ch.header_indices ++ [i]) :=
    arrayAppend_ok4 hi
  rw [Chain.append, e1, Chain.append_indices, hw]

theorem Chain.new_ok (parent : Option Nat) (hd : Header) (i w : Nat) (pw : Int) (hi : i < 2 ^ 32)
    (hw : hd.work = .ok w) :
    Chain.new parent hd i pw = .ok { parent, tip := hd, work := pw + w, first_height := hd.height,
                                     header_indices := [i] } := by
  have e1 : arrayAppend 4 [] (i : Int) = .ok ([] ++ [i]) := arrayAppend_ok4 hi
  simp only [Chain.new, hw, e1, ok_bind', pure_ok', List.nil_append]

/-- The chain extended by a header. -/
def extendedChain (H : Hashes) (cp : CheckPoint) (n : Nat) (P : Node) (raw : Bytes) (ch : Chain) : Chain :=
  { ch with
    tip := mkHeader H raw (nodeHeight cp P + 1 : Nat), work := ch.work + workOf raw,
    header_indices := ch.header_indices ++ [n + cp.height] }

/-- The chain made by a header that forks. -/
def forkedChain (H : Hashes) (cp : CheckPoint) (T : Tree) (P : Node) (raw : Bytes) : Chain :=
  { parent := some P.chain, tip := mkHeader H raw (nodeHeight cp P + 1 : Nat),
    work := cp.prev_work + totalWork T P.path + workOf raw,
    first_height := (nodeHeight cp P + 1 : Nat), header_indices := [T.length + cp.height] }

/-- What adding a header does to the chains. -/
inductive Added (s : Headers) (T : Tree) (P : Node) (raw : Bytes) (s' : Headers) (c : Nat) : Prop
  | extended (ch : Chain) : ¬ HasChild T P → c = P.chain → s.chains[P.chain]? = some ch →
      s'.chains = s.chains.set P.chain (extendedChain s.H s.checkpoint T.length P raw ch) →
      Added s T P raw s' c
  | forked : HasChild T P → c = s.chains.length →
      s'.chains = s.chains ++ [forkedChain s.H s.checkpoint T P raw] → Added s T P raw s' c

theorem Desc.read_header {S : Bytes → Prop} {s : Headers} {T : Tree} (h : Desc S s T) (hi : Inj s.H S)
    {p : Nat} {P : Node} {raw : Bytes} (hp : T[p]? = some P) (hv : Valid S raw)
    (hprev : header_prev_hash raw = header_hash s.H P.raw) (hnew : ∀ M ∈ T, M.raw ≠ raw)
    (hst : s.storage.get ((T.length : Int) + s.checkpoint.height) = .ok raw)
    (hb : T.length + s.checkpoint.height < 2 ^ 32) (hcl : s.chains.length ≤ 65536)
    (hcl' : HasChild T P → s.chains.length < 65536) :
    ∃ s' c, s.read_header (T.length + s.checkpoint.height) = (s', .ok c) ∧
      Desc S s' (T ++ [⟨raw, P.path ++ [T.length], c⟩]) ∧ s'.storage = s.storage ∧ s'.H = s.H ∧
      s'.coin = s.coin ∧ s'.checkpoint = s.checkpoint ∧ Added s T P raw s' c := by
  obtain ⟨ch, hch⟩ := h.chain_exists hp
  obtain ⟨t, N, base, own, hci⟩ := h.chain_at hch
  have hnok := h.good.node p P hp
  have hPlt := getElem?_lt hp
  have hlen := hnok.len
  have hPH : (mkHeader s.H P.raw (nodeHeight s.checkpoint P)).height = nodeHeight s.checkpoint P :=
    (mkHeader_fields _ (h.valid hp).length).2.1
  have hPhash := (mkHeader_fields (H := s.H) (nodeHeight s.checkpoint P) (h.valid hp).length).2.2.1
  have hht : nodeHeight s.checkpoint P + 1 < 2 ^ 32 := by
    have := hnok.pos
    simp only [nodeHeight]; omega
  have hread : s.read_prev (T.length + s.checkpoint.height) =
      .ok (mkHeader s.H raw (nodeHeight s.checkpoint P + 1 : Nat),
        mkHeader s.H P.raw (nodeHeight s.checkpoint P), P.chain) := by
    have e1 : ((T.length + s.checkpoint.height : Nat) : Int) = (T.length : Int) + s.checkpoint.height := by
      omega
    have e2 : s.lookup (mkHeader s.H raw (-1)).prev_hash =
        .ok (mkHeader s.H P.raw (nodeHeight s.checkpoint P), P.chain) := by
      rw [(mkHeader_fields (H := s.H) (-1) hv.length).2.2.2.1, hprev, h.lookup_found hi hp]
    simp only [Headers.read_prev, e1, hst, ok_bind', mkHeader_ok (H := s.H) (-1) hv.length, e2,
      pure_ok', hPH, mkHeader_with (H := s.H) _ _ hv.length]
    rfl
  have hwork : (mkHeader s.H raw (nodeHeight s.checkpoint P + 1 : Nat)).work = .ok (workOf raw) := by
    rw [mkHeader_work _ hv.length, hv.work]
  have hnh : (mkHeader s.H raw (nodeHeight s.checkpoint P + 1 : Nat)).height =
      ((nodeHeight s.checkpoint P + 1 : Nat) : Int) := (mkHeader_fields _ hv.length).2.1
  have hnhash : (mkHeader s.H raw (nodeHeight s.checkpoint P + 1 : Nat)).hash = header_hash s.H raw :=
    (mkHeader_fields _ hv.length).2.2.1
  -- the parts of `Desc` that do not depend on the case
  have key : ∀ (c : Nat) (chains : List Chain) (newch : Chain),
      Good s.H s.checkpoint S (T ++ [⟨raw, P.path ++ [T.length], c⟩]) chains →
      newch.tip = mkHeader s.H raw (nodeHeight s.checkpoint P + 1 : Nat) →
      Desc S { s with chains := chains, short_hashes := s.short_hashes ++ newch.tip.hash.take 4,
                      heights := s.heights ++ [nodeHeight s.checkpoint P + 1],
                      chain_indices := s.chain_indices ++ [c],
                      cache := Headers.cache_add s.cache chains newch.tip c }
        (T ++ [⟨raw, P.path ++ [T.length], c⟩]) := by
    intro c chains newch hg htip
    have hnode : nodeHeight s.checkpoint ⟨raw, P.path ++ [T.length], c⟩ = nodeHeight s.checkpoint P + 1 := by
      have := hnok.pos
      simp only [nodeHeight, List.length_append, List.length_singleton]; omega
    refine ⟨hg, ?_, ?_, ?_, ?_, ?_⟩
    · simp only [h.heights, List.map_append, List.map_cons, List.map_nil, hnode]
    · simp only [h.chain_indices, List.map_append, List.map_cons, List.map_nil]
    · simp only [h.short, htip, hnhash, List.flatMap_append, List.flatMap_cons, List.flatMap_nil,
        List.append_nil]
    · apply cache_add_all
      · intro e he
        obtain ⟨i, M, h1, h2⟩ := h.cache e he
        exact ⟨i, M, getElem?_snoc.2 (.inl h1), h2⟩
      · refine ⟨T.length, _, getElem?_snoc.2 (.inr ⟨rfl, rfl⟩), ?_⟩
        simp only [htip, hnhash, hnode]
      · intro c' ch' hc'
        obtain ⟨t', N', base', own', hci'⟩ := hg.chainIs c' ch' hc'
        refine ⟨t', N', hci'.node, ?_⟩
        have hl := (hg.node t' N' hci'.node).valid.length
        simp only [hci'.tip, (mkHeader_fields (H := s.H) _ hl).2.2.1, hci'.chain]
    · intro i M hM
      rcases getElem?_snoc.1 hM with hM | ⟨rfl, rfl⟩
      · exact h.stored i M hM
      · exact hst
  by_cases hchild : HasChild T P
  · have htest : ¬ ch.tip.hash = (mkHeader s.H P.raw (nodeHeight s.checkpoint P)).hash := by
      rw [hPhash, h.tip_iff hi hp hch]; exact not_not.2 hchild
    have hpre := h.good.prefix_tip hci hp rfl
    have hwk := h.chainwork_to hch hci P.path.length (by
        have := congrArg List.length hpre.1
        rw [List.length_take] at this; omega) (nodeHeight s.checkpoint P) (by
        have := hnok.pos; simp only [nodeHeight]; omega)
    rw [← hpre.1] at hwk
    have hnewch := Chain.new_ok (some P.chain) (mkHeader s.H raw (nodeHeight s.checkpoint P + 1 : Nat))
      (T.length + s.checkpoint.height) _ (s.checkpoint.prev_work + totalWork T P.path) hb hwork
    rw [hnh] at hnewch
    have hgood := Good.fork h.good hp hchild hv hprev hnew
    have hadd := add_chain_tip_ok { s with chains := s.chains ++ [forkedChain s.H s.checkpoint T P raw] }
      (forkedChain s.H s.checkpoint T P raw) s.chains.length _ hnh hht (hcl' hchild)
    refine ⟨_, s.chains.length, ?_, key s.chains.length _ (forkedChain s.H s.checkpoint T P raw) hgood rfl,
      rfl, rfl, rfl, rfl, .forked hchild rfl rfl⟩
    simp only [Headers.read_header, hread, hch, htest, if_false, hPH, hwk, hnewch, Headers.add_chain]
    unfold forkedChain at hadd
    rw [hadd]
    rfl
  · have htest : ch.tip.hash = (mkHeader s.H P.raw (nodeHeight s.checkpoint P)).hash := by
      rw [hPhash, h.tip_iff hi hp hch]; exact hchild
    have happ := Chain.append_ok ch (mkHeader s.H raw (nodeHeight s.checkpoint P + 1 : Nat))
      (T.length + s.checkpoint.height) _ hb hwork
    have hgood := Good.extend h.good hp hchild hch hv hprev hnew
    have hadd := add_chain_tip_ok { s with
        chains := (s.chains.set P.chain (extendedChain s.H s.checkpoint T.length P raw ch)) }
      (extendedChain s.H s.checkpoint T.length P raw ch) P.chain _ hnh hht (by
        have := hnok.chain; omega)
    refine ⟨_, P.chain, ?_, key P.chain _ (extendedChain s.H s.checkpoint T.length P raw ch) hgood rfl,
      rfl, rfl, rfl, rfl, .extended ch hchild rfl hch rfl⟩
    simp only [Headers.read_header, hread, hch, htest, if_true, happ]
    unfold extendedChain at hadd
    rw [hadd]
    rfl

end Bitcoinx
