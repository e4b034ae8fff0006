import Verif.Model.Caching
import Verif.Props.Bip32Path

/-! # C119: the caches cannot be noticed -/

namespace Bitcoinx
open Spec

namespace Spec

/-- What a call should return whatever was called before. -/
def uncached : CachedCall → Res Nat
  | .target bits => bits_to_target bits
  | .work bits => bits_to_work bits

/-- The argument of a call. -/
def callBits : CachedCall → Int
  | .target bits => bits
  | .work bits => bits

/-- A cache holds right results only, no two for the same argument, and at most 128. -/
structure RightCache (f : Int → Res Nat) (cache : List (Int × Nat)) : Prop where
  right : ∀ e ∈ cache, f e.1 = .ok e.2
  nodup : (cache.map Prod.fst).Nodup
  size : cache.length ≤ 128

/-- What reading properties should give if nothing were kept, the objects being made from `ks` so far. -/
def unkept {κ α : Type} (f : κ → Res α) : List κ → List (CachedOp κ) → List (Option (Res α))
  | _, [] => []
  | ks, .create k :: xs => none :: unkept f (ks ++ [k]) xs
  | ks, .get i :: xs => (ks[i]?).map f :: unkept f ks xs
  | ks, .getClass :: xs => some (.error .typeError) :: unkept f ks xs

/-- What the objects were made from. -/
def created {κ : Type} : List (CachedOp κ) → List κ
  | [] => []
  | .create k :: xs => k :: created xs
  | _ :: xs => created xs

end Spec

theorem lruLookup_some {cache : List (Int × Nat)} {k : Int} {v : Nat} {cache' : List (Int × Nat)}
    (h : lruLookup cache k = some (v, cache')) :
    (k, v) ∈ cache ∧ cache' = (k, v) :: cache.filter (fun e => e.1 != k) := by
  unfold lruLookup at h
  cases hf : cache.find? (fun e => e.1 == k) with
  | none => rw [hf] at h; cases h
  | some e =>
    rw [hf] at h
    have hm := List.mem_of_find?_eq_some hf
    have hk : e.1 = k := by simpa using List.find?_some hf
    obtain ⟨a, b⟩ := e
    simp only [Option.some.injEq, Prod.mk.injEq] at h
    obtain ⟨rfl, rfl⟩ := h
    cases hk
    exact ⟨hm, rfl⟩

theorem lruLookup_none {cache : List (Int × Nat)} {k : Int} (h : lruLookup cache k = none) :
    k ∉ cache.map Prod.fst := by
  unfold lruLookup at h
  cases hf : cache.find? (fun e => e.1 == k) with
  | some e => rw [hf] at h; cases h
  | none =>
    intro hm
    obtain ⟨e, he, rfl⟩ := List.mem_map.mp hm
    have := List.find?_eq_none.mp hf e he
    simp at this

theorem Spec.RightCache.lookup {f : Int → Res Nat} {cache : List (Int × Nat)} (hc : RightCache f cache) {k : Int} {v : Nat}
    {cache' : List (Int × Nat)} (h : lruLookup cache k = some (v, cache')) : f k = .ok v ∧ RightCache f cache' := by
  obtain ⟨hm, rfl⟩ := lruLookup_some h
  have hv := hc.right _ hm
  refine ⟨hv, ?_, ?_, ?_⟩
  · intro e he
    rcases List.mem_cons.mp he with rfl | he
    · exact hv
    · exact hc.right e (List.mem_filter.mp he).1
  · rw [List.map_cons, List.nodup_cons]
    refine ⟨fun hk => ?_, hc.nodup.sublist (List.filter_sublist.map _)⟩
    obtain ⟨e, he, hek⟩ := List.mem_map.mp hk
    have := (List.mem_filter.mp he).2
    simp [hek] at this
  · have hlt : (cache.filter (fun e => e.1 != k)).length < cache.length := by
      refine List.length_filter_lt_length_iff_exists.mpr ⟨(k, v), hm, by simp⟩
    have := hc.size
    rw [List.length_cons]; omega

theorem Spec.RightCache.store {f : Int → Res Nat} {cache : List (Int × Nat)} (hc : RightCache f cache) {k : Int} {v : Nat}
    (hk : lruLookup cache k = none) (hv : f k = .ok v) : RightCache f (lruStore cache k v) := by
  unfold lruStore
  refine ⟨?_, ?_, by rw [List.length_take]; omega⟩
  · intro e he
    rcases List.mem_cons.mp (List.mem_of_mem_take he) with rfl | he
    · exact hv
    · exact hc.right e he
  · refine List.Nodup.sublist ((List.take_sublist 128 _).map _) ?_
    rw [List.map_cons, List.nodup_cons]
    exact ⟨lruLookup_none hk, hc.nodup⟩

/-- Both caches are right. -/
def RightCaches (c : Caches) : Prop := RightCache bits_to_target c.targets ∧ RightCache bits_to_work c.works

theorem cached_target {c : Caches} (hc : RightCaches c) (bits : Int) :
    (c.bits_to_target bits).1 = bits_to_target bits ∧ RightCaches (c.bits_to_target bits).2 := by
  unfold Caches.bits_to_target
  cases hl : lruLookup c.targets bits with
  | some p =>
    obtain ⟨v, t⟩ := p
    obtain ⟨h1, h2⟩ := hc.1.lookup hl
    exact ⟨h1.symm, h2, hc.2⟩
  | none =>
    cases hb : bits_to_target bits with
    | error e => exact ⟨rfl, hc⟩
    | ok v => exact ⟨rfl, hc.1.store hl hb, hc.2⟩

theorem cached_work {c : Caches} (hc : RightCaches c) (bits : Int) :
    (c.bits_to_work bits).1 = bits_to_work bits ∧ RightCaches (c.bits_to_work bits).2 := by
  unfold Caches.bits_to_work
  cases hl : lruLookup c.works bits with
  | some p =>
    obtain ⟨v, t⟩ := p
    obtain ⟨h1, h2⟩ := hc.2.lookup hl
    exact ⟨h1.symm, hc.1, h2⟩
  | none =>
    obtain ⟨h1, h2⟩ := cached_target hc bits
    have hw : (c.bits_to_target bits).2.works = c.works := by
      unfold Caches.bits_to_target
      cases lruLookup c.targets bits with
      | some p => rfl
      | none => cases bits_to_target bits <;> rfl
    generalize c.bits_to_target bits = p at h1 h2 hw
    obtain ⟨r, c'⟩ := p
    dsimp only at h1 h2 hw
    cases r with
    | error e =>
      refine ⟨?_, h2⟩
      rw [bits_to_work, ← h1, error_bind']
    | ok t =>
      have hv : bits_to_work bits = .ok (2 ^ 256 / (t + 1)) := by rw [bits_to_work, ← h1, ok_bind', pure_ok']
      refine ⟨hv.symm, h2.1, ?_⟩
      show RightCache _ (lruStore c'.works bits _)
      rw [hw]
      exact hc.2.store hl hv

theorem cached_call {c : Caches} (hc : RightCaches c) (x : CachedCall) :
    (c.call x).1 = uncached x ∧ RightCaches (c.call x).2 := by
  cases x with
  | target b => exact cached_target hc b
  | work b => exact cached_work hc b

/-- **C119** (`lru_cache`).  Whatever was called before, with whatever success, every call returns or raises what the
function would without a cache; the caches hold right results only, at most 128 each. -/
theorem C119_transparent (xs : List CachedCall) :
    (Caches.empty.calls xs).1 = xs.map uncached ∧
    RightCache bits_to_target (Caches.empty.calls xs).2.targets ∧ RightCache bits_to_work (Caches.empty.calls xs).2.works := by
  have key : ∀ (xs : List CachedCall) (c : Caches), RightCaches c →
      (c.calls xs).1 = xs.map uncached ∧ RightCaches (c.calls xs).2 := by
    intro xs
    induction xs with
    | nil => intro c hc; exact ⟨rfl, hc⟩
    | cons x xs ih =>
      intro c hc
      obtain ⟨h1, h2⟩ := cached_call hc x
      obtain ⟨h3, h4⟩ := ih _ h2
      refine ⟨?_, h4⟩
      show (c.call x).1 :: ((c.call x).2.calls xs).1 = _
      rw [h1, h3, List.map_cons]
  exact key xs _ ⟨⟨by simp [Caches.empty], by simp [Caches.empty], by simp [Caches.empty]⟩,
    ⟨by simp [Caches.empty], by simp [Caches.empty], by simp [Caches.empty]⟩⟩

/-- The entries before that of an argument are of arguments in `D`. -/
def KeptWithin (cache : List (Int × Nat)) (k : Int) (D : List Int) : Prop :=
  ∃ pre v post, cache = pre ++ (k, v) :: post ∧ ∀ e ∈ pre, e.1 ∈ D

theorem KeptWithin.lookup {f : Int → Res Nat} {cache : List (Int × Nat)} (hc : RightCache f cache) {k b : Int} {D : List Int}
    (h : KeptWithin cache k D) {v : Nat} {cache' : List (Int × Nat)} (hl : lruLookup cache b = some (v, cache')) :
    KeptWithin cache' k (b :: D) := by
  obtain ⟨pre, w, post, rfl, hp⟩ := h
  obtain ⟨hm, rfl⟩ := lruLookup_some hl
  by_cases hb : b = k
  · subst hb
    exact ⟨[], v, _, rfl, by simp⟩
  · refine ⟨(b, v) :: pre.filter (fun e => e.1 != b), w, post.filter (fun e => e.1 != b), ?_, ?_⟩
    · have : (k != b) = true := by simpa using fun h : k = b => hb h.symm
      rw [List.filter_append, List.filter_cons, if_pos this, List.cons_append]
    · intro e he
      rcases List.mem_cons.mp he with rfl | he
      · exact List.mem_cons_self
      · exact List.mem_cons_of_mem _ (hp e (List.mem_filter.mp he).1)

theorem nodup_within {pre : List (Int × Nat)} {D : List Int} (hn : (pre.map Prod.fst).Nodup) (hp : ∀ e ∈ pre, e.1 ∈ D) :
    pre.length ≤ D.dedup.length := by
  have := (List.subperm_of_subset hn (l₂ := D.dedup) (by
    intro x hx
    obtain ⟨e, he, rfl⟩ := List.mem_map.mp hx
    exact List.mem_dedup.mpr (hp e he))).length_le
  rwa [List.length_map] at this

theorem KeptWithin.store {f : Int → Res Nat} {cache : List (Int × Nat)} (hc : RightCache f cache) {k b : Int} {D : List Int}
    (h : KeptWithin cache k D) (hl : lruLookup cache b = none) (v : Nat) (hD : (b :: D).dedup.length < 128) :
    KeptWithin (lruStore cache b v) k (b :: D) := by
  obtain ⟨pre, w, post, rfl, hp⟩ := h
  have hn := hc.nodup
  have hb := lruLookup_none hl
  have hpre : ∀ e ∈ (b, v) :: pre, e.1 ∈ b :: D := by
    intro e he
    rcases List.mem_cons.mp he with rfl | he
    · exact List.mem_cons_self
    · exact List.mem_cons_of_mem _ (hp e he)
  have hlen : ((b, v) :: pre).length ≤ (b :: D).dedup.length := by
    refine nodup_within ?_ hpre
    rw [List.map_append] at hn hb
    rw [List.map_cons, List.nodup_cons]
    exact ⟨fun hx => hb (List.mem_append_left _ hx), (List.nodup_append.mp hn).1⟩
  refine ⟨(b, v) :: pre, w, post.take (127 - ((b, v) :: pre).length), ?_, hpre⟩
  unfold lruStore
  rw [← List.cons_append, List.take_append, List.take_of_length_le (by omega),
    show 128 - ((b, v) :: pre).length = (127 - ((b, v) :: pre).length) + 1 by omega, List.take_succ_cons]

theorem KeptWithin.mono {cache : List (Int × Nat)} {k : Int} {D E : List Int} (h : KeptWithin cache k D) (hs : D ⊆ E) :
    KeptWithin cache k E := by
  obtain ⟨pre, w, post, rfl, hp⟩ := h
  exact ⟨pre, w, post, rfl, fun e he => hs (hp e he)⟩

theorem kept_target {c : Caches} (hc : RightCaches c) {k b : Int} {D : List Int} (h : KeptWithin c.targets k D)
    (hD : (b :: D).dedup.length < 128) : KeptWithin (c.bits_to_target b).2.targets k (b :: D) := by
  unfold Caches.bits_to_target
  cases hl : lruLookup c.targets b with
  | some p => exact h.lookup hc.1 hl
  | none =>
    cases bits_to_target b with
    | error e => exact h.mono (List.subset_cons_self _ _)
    | ok v => exact h.store hc.1 hl v hD

theorem kept_call {c : Caches} (hc : RightCaches c) {k : Int} {D : List Int} (h : KeptWithin c.targets k D) (x : CachedCall)
    (hD : (callBits x :: D).dedup.length < 128) : KeptWithin (c.call x).2.targets k (callBits x :: D) := by
  cases x with
  | target b => exact kept_target hc h hD
  | work b =>
    show KeptWithin (c.bits_to_work b).2.targets k (b :: D)
    unfold Caches.bits_to_work
    cases hl : lruLookup c.works b with
    | some p => exact h.mono (List.subset_cons_self _ _)
    | none =>
      have : KeptWithin (c.bits_to_target b).2.targets k (b :: D) := kept_target hc h hD
      generalize c.bits_to_target b = p at this
      obtain ⟨r, c'⟩ := p
      cases r <;> exact this

/-- **C119** (what is kept).  A target once worked out is still kept after any further calls of either function with fewer
than 128 different arguments, the argument itself included: it is not worked out again. -/
theorem C119_kept (xs ys : List CachedCall) (bits : Int) (t : Nat) (ht : bits_to_target bits = .ok t)
    (hys : (ys.map callBits).dedup.length < 128) :
    ∃ cache, lruLookup (Caches.empty.calls (xs ++ .target bits :: ys)).2.targets bits = some (t, cache) := by
  have happ : ∀ (xs ys : List CachedCall) (c : Caches), (c.calls (xs ++ ys)).2 = ((c.calls xs).2.calls ys).2 := by
    intro xs
    induction xs with
    | nil => intro ys c; rfl
    | cons x xs ih => intro ys c; exact ih ys _
  have hfirst : ∀ c : Caches, RightCaches c → KeptWithin (c.call (.target bits)).2.targets bits [] := by
    intro c hc
    show KeptWithin (c.bits_to_target bits).2.targets bits []
    unfold Caches.bits_to_target
    cases hl : lruLookup c.targets bits with
    | some p =>
      obtain ⟨v, c'⟩ := p
      obtain ⟨_, rfl⟩ := lruLookup_some hl
      exact ⟨[], v, _, rfl, by simp⟩
    | none =>
      rw [ht]
      exact ⟨[], t, c.targets.take 127, rfl, by simp⟩
  have hrest : ∀ (ys : List CachedCall) (c : Caches) (D : List Int), RightCaches c → KeptWithin c.targets bits D →
      (ys.map callBits ++ D).dedup.length < 128 →
      RightCaches (c.calls ys).2 ∧ ∃ E, KeptWithin (c.calls ys).2.targets bits E := by
    intro ys
    induction ys with
    | nil => intro c D hc hk _; exact ⟨hc, D, hk⟩
    | cons y ys ih =>
      intro c D hc hk hD
      have hsub : ∀ {A B : List Int}, A ⊆ B → A.dedup.length ≤ B.dedup.length := by
        intro A B h
        exact (List.subperm_of_subset (List.nodup_dedup A) (by
          intro x hx; exact List.mem_dedup.mpr (h (List.mem_dedup.mp hx)))).length_le
      have h1 := kept_call hc hk y (lt_of_le_of_lt (hsub (by
        intro x hx
        rcases List.mem_cons.mp hx with rfl | hx
        · simp
        · simp [hx])) hD)
      exact ih _ _ (cached_call hc y).2 h1 (lt_of_le_of_lt (hsub (by
        intro x hx
        simp only [List.mem_append, List.mem_cons, List.map_cons] at hx ⊢
        tauto)) hD)
  have h0 : RightCaches (Caches.empty.calls xs).2 := (C119_transparent xs).2
  obtain ⟨hc, E, pre, v, post, hk, _⟩ := hrest ys _ [] (cached_call h0 (.target bits)).2 (hfirst _ h0) (by
    rwa [List.append_nil])
  rw [happ]
  show ∃ cache, lruLookup (((Caches.empty.calls xs).2.call (.target bits)).2.calls ys).2.targets bits = _
  cases hl : lruLookup (((Caches.empty.calls xs).2.call (.target bits)).2.calls ys).2.targets bits with
  | none =>
    exact absurd (by rw [hk]; simp) (lruLookup_none hl)
  | some p =>
    obtain ⟨w, cache⟩ := p
    have := (hc.1.lookup hl).1
    rw [ht] at this
    cases this
    exact ⟨cache, rfl⟩

section
variable {κ α : Type} {f : κ → Res α}

/-- Attributes are right, and `f` was called at most once with success for every object, never if it has no attribute. -/
structure RightObjects (f : κ → Res α) (w : CachedObjects κ α) : Prop where
  right : ∀ (i : Nat) obj v, w.objects[i]? = some obj → obj.value? = some v → f obj.self = .ok v ∧ w.log.count i = 1
  once : ∀ (i : Nat) obj v, w.objects[i]? = some obj → obj.value? = none → f obj.self = .ok v → w.log.count i = 0
  made : ∀ i ∈ w.log, i < w.objects.length

theorem RightObjects.step {w : CachedObjects κ α} (hw : RightObjects f w) (x : CachedOp κ) :
    RightObjects f (w.step f x).2 ∧
    (w.step f x).2.objects.map CachedObject.self = w.objects.map CachedObject.self ++ created [x] ∧
    (w.step f x).1 :: [] = unkept f (w.objects.map CachedObject.self) [x] := by
  cases x with
  | create k =>
    refine ⟨⟨?_, ?_, ?_⟩, by simp [CachedObjects.step, created], rfl⟩
    · intro i obj v hi hv
      simp only [CachedObjects.step] at hi ⊢
      by_cases hlt : i < w.objects.length
      · rw [List.getElem?_append_left hlt] at hi
        exact hw.right i obj v hi hv
      · rw [List.getElem?_append_right (by omega)] at hi
        have := List.mem_of_getElem? hi
        rw [List.mem_singleton] at this
        subst this
        cases hv
    · intro i obj v hi hn hv
      simp only [CachedObjects.step] at hi ⊢
      by_cases hlt : i < w.objects.length
      · rw [List.getElem?_append_left hlt] at hi
        exact hw.once i obj v hi hn hv
      · exact List.count_eq_zero.mpr fun hm => hlt (hw.made i hm)
    · intro i hi
      simp only [CachedObjects.step, List.length_append] at hi ⊢
      have := hw.made i hi
      omega
  | getClass => exact ⟨hw, by simp [CachedObjects.step, created], rfl⟩
  | get i =>
    have hget : (w.objects.map CachedObject.self)[i]? = (w.objects[i]?).map CachedObject.self := List.getElem?_map
    simp only [CachedObjects.step, created, List.append_nil, unkept, hget]
    cases ho : w.objects[i]? with
    | none => exact ⟨hw, rfl, rfl⟩
    | some obj =>
      have hi : i < w.objects.length := (List.getElem?_eq_some_iff.mp ho).1
      dsimp only
      cases hv : obj.value? with
      | some v =>
        refine ⟨hw, rfl, ?_⟩
        rw [Option.map_some, Option.map_some, (hw.right i obj v ho hv).1]
      | none =>
        dsimp only
        cases hf : f obj.self with
        | error e =>
          refine ⟨⟨?_, ?_, ?_⟩, rfl, by rw [Option.map_some, Option.map_some, hf]⟩
          · intro j o v hj hjv
            by_cases hji : j = i
            · subst hji
              rw [ho] at hj; cases hj
              rw [hv] at hjv; cases hjv
            · rw [List.count_cons_of_ne (by simpa using fun h : i = j => hji h.symm)]
              exact hw.right j o v hj hjv
          · intro j o v hj hn hjv
            by_cases hji : j = i
            · subst hji
              rw [ho] at hj; cases hj
              rw [hf] at hjv; cases hjv
            · rw [List.count_cons_of_ne (by simpa using fun h : i = j => hji h.symm)]
              exact hw.once j o v hj hn hjv
          · intro j hj
            rcases List.mem_cons.mp hj with rfl | hj
            · exact hi
            · exact hw.made j hj
        | ok val =>
          refine ⟨⟨?_, ?_, ?_⟩, ?_, by rw [Option.map_some, Option.map_some, hf]⟩
          · intro j o v hj hjv
            dsimp only at hj ⊢
            by_cases hji : j = i
            · subst hji
              rw [List.getElem?_set_self hi] at hj
              cases hj
              cases hjv
              exact ⟨hf, by rw [List.count_cons_self, hw.once j obj val ho hv hf]⟩
            · rw [List.getElem?_set_ne (fun h => hji h.symm)] at hj
              rw [List.count_cons_of_ne (by simpa using fun h : i = j => hji h.symm)]
              exact hw.right j o v hj hjv
          · intro j o v hj hn hjv
            dsimp only at hj ⊢
            by_cases hji : j = i
            · subst hji
              rw [List.getElem?_set_self hi] at hj
              cases hj
              cases hn
            · rw [List.getElem?_set_ne (fun h => hji h.symm)] at hj
              rw [List.count_cons_of_ne (by simpa using fun h : i = j => hji h.symm)]
              exact hw.once j o v hj hn hjv
          · intro j hj
            simp only [List.length_set]
            rcases List.mem_cons.mp hj with rfl | hj
            · exact hi
            · exact hw.made j hj
          · apply List.ext_getElem?
            intro j
            simp only [List.getElem?_map]
            by_cases hji : i = j
            · subst hji
              rw [List.getElem?_set_self hi, ho]
              rfl
            · rw [List.getElem?_set_ne hji]

theorem unkept_cons (f : κ → Res α) (ks : List κ) (x : CachedOp κ) (xs : List (CachedOp κ)) :
    unkept f ks (x :: xs) = unkept f ks [x] ++ unkept f (ks ++ created [x]) xs := by
  cases x <;> simp [unkept, created]

theorem created_cons (x : CachedOp κ) (xs : List (CachedOp κ)) : created (x :: xs) = created [x] ++ created xs := by
  cases x <;> simp [created]

/-- Reading a `cachedproperty`: as if nothing were kept, and worked out once. -/
theorem cached_run (f : κ → Res α) (ops : List (CachedOp κ)) :
    (CachedObjects.run f { objects := [], log := [] } ops).1 = unkept f [] ops ∧
    (CachedObjects.run f { objects := [], log := [] } ops).2.objects.map CachedObject.self = created ops ∧
    ∀ (i : Nat) k v, (created ops)[i]? = some k → f k = .ok v →
      (CachedObjects.run f { objects := [], log := [] } ops).2.log.count i ≤ 1 := by
  have key : ∀ (ops : List (CachedOp κ)) (w : CachedObjects κ α), RightObjects f w →
      (w.run f ops).1 = unkept f (w.objects.map CachedObject.self) ops ∧
      (w.run f ops).2.objects.map CachedObject.self = w.objects.map CachedObject.self ++ created ops ∧
      RightObjects f (w.run f ops).2 := by
    intro ops
    induction ops with
    | nil => intro w hw; exact ⟨rfl, by simp [CachedObjects.run, created], hw⟩
    | cons x xs ih =>
      intro w hw
      obtain ⟨h1, h2, h3⟩ := hw.step x
      obtain ⟨h4, h5, h6⟩ := ih _ h1
      refine ⟨?_, ?_, h6⟩
      · rw [unkept_cons, ← h3, ← h2, ← h4]
        rfl
      · rw [created_cons, ← List.append_assoc, ← h2, ← h5]
        rfl
  obtain ⟨h1, h2, h3⟩ := key ops { objects := [], log := [] } ⟨by simp, by simp, by simp⟩
  rw [List.map_nil, List.nil_append] at h2
  refine ⟨h1, h2, ?_⟩
  intro i k v hi hv
  rw [← h2, List.getElem?_map] at hi
  obtain ⟨obj, ho, rfl⟩ := Option.map_eq_some_iff.mp hi
  cases hval : obj.value? with
  | some u => exact (h3.right i obj u ho hval).2.le
  | none => rw [h3.once i obj v ho hval hv]; omega
end

/-- **C119** (`public_key`).  In every program which makes private keys and reads their public keys in any order and any
number of times, each reading gives what `_secp256k1_public_key` would give then for that key; it is worked out at
most once for a key that has a public key; the private keys stay what they were; and reading it of the class raises
`TypeError` and spoils nothing. -/
theorem C119_public_key (L : Secp) :
    (∀ ops : List (CachedOp PrivateKey),
      (publicKeys L ops).1 = unkept (fun k => k.public_key L) [] ops ∧
      (publicKeys L ops).2.objects.map CachedObject.self = created ops ∧
      ∀ (i : Nat) k v, (created ops)[i]? = some k → k.public_key L = .ok v → (publicKeys L ops).2.log.count i ≤ 1) ∧
    (∀ ops : List (CachedOp BIP32PrivateKey),
      (publicKeys32 L ops).1 = unkept (fun k => k.public_key L) [] ops ∧
      (publicKeys32 L ops).2.objects.map CachedObject.self = created ops ∧
      ∀ (i : Nat) k v, (created ops)[i]? = some k → k.public_key L = .ok v → (publicKeys32 L ops).2.log.count i ≤ 1) :=
  ⟨fun ops => cached_run _ ops, fun ops => cached_run _ ops⟩

/-- The work of the genesis bits is asked for twice, between that an invalid value: two results are kept. -/
example : (Caches.empty.calls [.work 0x1d00ffff, .target 1, .target 0x1d00ffff, .work 0x1d00ffff]).1.map Except.toOption =
      [some 4295032833, none, some (0xffff * 2 ^ 208), some 4295032833] ∧
    (Caches.empty.calls [.work 0x1d00ffff, .target 1, .target 0x1d00ffff, .work 0x1d00ffff]).2.targets.length = 1 ∧
    (Caches.empty.calls [.work 0x1d00ffff, .target 1, .target 0x1d00ffff, .work 0x1d00ffff]).2.works.length = 1 := by
  decide +kernel

/-- The genesis bits are still kept after the work of others was asked for. -/
example : ∃ cache, lruLookup (Caches.empty.calls ([] ++ .target 0x1d00ffff :: [.work 0x1b0404cb, .target 0x1b0404cb])).2.targets
    0x1d00ffff = some (0xffff * 2 ^ 208, cache) :=
  C119_kept [] _ _ _ (by decide +kernel) (by decide +kernel)

/-- The public key of one key is read twice, with the class in between: worked out once. -/
example : (publicKeys32 toySecp [.create xprv3, .get 0, .getClass, .get 0]).2.log = [0] ∧
    (publicKeys32 toySecp [.create xprv3, .get 0, .getClass, .get 0]).1.map (fun r => r.map (fun x => x.toOption.isSome)) =
      [none, some true, some false, some true] := by
  decide +kernel

end Bitcoinx
