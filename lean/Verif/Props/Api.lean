import Verif.Spec.Api
import Verif.Lemmas.Api
import Verif.Lemmas.RealSample
import Verif.Props.Str
import Mathlib.Data.List.Sort

/-!
# Properties of the public methods: C32 to C37
-/

set_option linter.unusedSectionVars false

namespace BT
open Spec

section c37
variable {E V : Type}

/-- C37 (numeric dtypes): data of the listed dtypes is passed on as it is. -/
theorem C37_native (ob : ObjOps E V) (a : NArr V) : ensureFloat64 ob (.native a) = .ok a := rfl

/-- C37 (other dtypes): the conversion succeeds iff every element can be converted and compares equal to
its converted value, and then the result has the same shape and the converted values. -/
theorem C37_lossless (ob : ObjOps E V) (shape : List Nat) (data : List E) (x : NArr V) :
    ensureFloat64 ob (.other shape data) = .ok x ↔
      ∃ vs, List.Forall₂ (fun e v => ob.toFloat e = .ok v ∧ ob.same e v = true) data vs ∧
        x = ⟨shape, .float64, vs⟩ := by
  rw [ensureFloat64]
  cases hc : convertAll ob data with
  | error e =>
    dsimp only
    refine ⟨fun h => (by cases h), ?_⟩
    rintro ⟨vs, h, -⟩
    have := (convertAll_ok ob data vs).2 (h.imp fun _ _ h => h.1)
    rw [hc] at this; cases this
  | ok vs =>
    have hf := (convertAll_ok ob data vs).1 hc
    dsimp only
    constructor
    · intro h
      split at h
      · next hs => cases h; exact ⟨vs, (zip_same_iff ob data vs hf).1 hs, rfl⟩
      · cases h
    · rintro ⟨ws, h, rfl⟩
      have := (convertAll_ok ob data ws).2 (h.imp fun _ _ h => h.1)
      rw [hc] at this; cases this
      rw [if_pos ((zip_same_iff ob data vs hf).2 h)]

/-- C37 (failures), what does hold: if every element can be converted but one does not compare equal to
its converted value, the exception is `ValueError`; if an element cannot be converted, the exception of
the conversion is passed on.  Missing from the full statement: that the latter is a `ValueError` too,
which depends on the element (`C37_refuted`). -/
theorem C37_rejects_partial (ob : ObjOps E V) (shape : List Nat) (data : List E) :
    ((∀ e ∈ data, ∃ v, ob.toFloat e = .ok v) →
      (∃ e ∈ data, ∃ v, ob.toFloat e = .ok v ∧ ob.same e v = false) →
      ensureFloat64 ob (.other shape data) = .error .valueError) ∧
    ((∃ e ∈ data, ∃ err, ob.toFloat e = .error err) →
      ∃ e ∈ data, ∃ err, ob.toFloat e = .error err ∧ ensureFloat64 ob (.other shape data) = .error err) ∧
    ((∀ e ∈ data, ∀ err, ob.toFloat e = .error err → err = .valueError) →
      ∀ err, ensureFloat64 ob (.other shape data) = .error err → err = .valueError) := by
  refine ⟨?_, ?_, ?_⟩
  · intro hall hex
    rw [ensureFloat64]
    cases hc : convertAll ob data with
    | error e =>
      obtain ⟨pre, x, post, rfl, hx, -⟩ := (convertAll_error ob data e).1 hc
      obtain ⟨v, hv⟩ := hall x (by simp)
      rw [hx] at hv; cases hv
    | ok vs =>
      have hf := (convertAll_ok ob data vs).1 hc
      dsimp only
      rw [if_neg]
      rw [zip_same_iff ob data vs hf]
      intro h2
      obtain ⟨e, he, v, hv, hs⟩ := hex
      obtain ⟨i, hi, rfl⟩ := List.getElem_of_mem he
      have hl := h2.length_eq
      have hg := (List.forall₂_iff_get.1 h2).2 i hi (by omega)
      simp only [List.get_eq_getElem] at hg
      rw [hv] at hg
      obtain ⟨hg1, hg2⟩ := hg
      cases hg1
      rw [hs] at hg2; cases hg2
  · rintro ⟨e, he, err, h⟩
    cases hc : convertAll ob data with
    | error e' =>
      obtain ⟨pre, x, post, rfl, hx, -⟩ := (convertAll_error ob _ e').1 hc
      exact ⟨x, by simp, e', hx, by rw [ensureFloat64, hc]⟩
    | ok vs =>
      have hf := (convertAll_ok ob data vs).1 hc
      obtain ⟨i, hi, rfl⟩ := List.getElem_of_mem he
      have hg := (List.forall₂_iff_get.1 hf).2 i hi (by rw [← hf.length_eq]; exact hi)
      simp only [List.get_eq_getElem] at hg
      rw [h] at hg; cases hg
  · intro hall err h
    rw [ensureFloat64] at h
    cases hc : convertAll ob data with
    | error e' =>
      rw [hc] at h; cases h
      obtain ⟨pre, x, post, rfl, hx, -⟩ := (convertAll_error ob _ err).1 hc
      exact hall x (by simp) err hx
    | ok vs =>
      rw [hc] at h
      dsimp only at h
      split at h <;> cases h
      rfl

end c37

/-- Some elements of object arrays: numbers of any size, strings (with the integer they denote,
if any), `None`, other objects.
`astype(float64)` turns a Python integer into the nearest double, a numeric string into its value, `None`
into NaN, raises `ValueError` for a string that is no number and `TypeError` for other objects. -/
inductive PyVal where
  | int (n : ℤ)
  | str (parsed : Option ℤ)
  | none
  | obj
  deriving DecidableEq, Repr

/-- Rounding of integers below `2 ^ 54` to doubles (ties to even). -/
def roundInt (n : ℤ) : ℤ :=
  if |n| ≤ 2 ^ 53 then n else if n % 4 = 1 then n - 1 else if n % 4 = 3 then n + 1 else n

/-- Conversion and comparison of these elements: a number equals a double iff the values are equal; a
string or `None` equals no number. -/
def pyOps : ObjOps PyVal (XF ℚ) where
  toFloat
    | .int n => .ok (.fin (roundInt n))
    | .str (some n) => .ok (.fin n)
    | .str none => .error .valueError
    | .none => .ok .nan
    | .obj => .error .typeError
  same
    | .int n, .fin q => decide ((n : ℚ) = q)
    | _, _ => false

/-- C37 is false as stated: an object array with an inconvertible element raises `TypeError`. -/
theorem C37_refuted : ensureFloat64 pyOps (.other [2] [.int 1, .obj]) = .error .typeError := by decide +kernel

example : ensureFloat64 pyOps (.other [2] [.int 1, .int (-3)]) = .ok ⟨[2], .float64, [.fin 1, .fin (-3)]⟩ := by
  decide +kernel
example : ensureFloat64 pyOps (.other [1] [.int (2 ^ 53 + 1)]) = .error .valueError := by decide +kernel
example : ensureFloat64 pyOps (.other [1] [.none]) = .error .valueError := by decide +kernel
example : ensureFloat64 pyOps (.other [1] [.str (some 7)]) = .error .valueError := by decide +kernel

section c33
variable {K : Type} [Field K] [LinearOrder K] [IsStrictOrderedRing K]

theorem npUnique_sorted (l : List K) : (npUnique l).Pairwise (· < ·) := by
  have h1 : (npUnique l).Pairwise (· ≤ ·) := List.pairwise_insertionSort _ _
  have h2 : (npUnique l).Nodup := (List.perm_insertionSort _ _).nodup_iff.2 (distinct_nodup l)
  exact (h1.and h2).imp fun h => lt_of_le_of_ne h.1 h.2

theorem mem_npUnique (l : List K) (a : K) : a ∈ npUnique l ↔ a ∈ l := by
  unfold npUnique
  rw [List.mem_insertionSort, distinct_mem]

theorem arange_sorted (k : Nat) : ((List.range k).map fun (i : Nat) => (i : K)).Pairwise (· < ·) := by
  rw [List.pairwise_map]
  refine List.pairwise_lt_range.imp ?_
  intro a b h
  exact_mod_cast h

theorem zipAll_eq (u a : List K) (h : u.length = a.length) :
    (List.zipWith (fun x y => decide (x = y)) u a).all id = true ↔ u = a := by
  induction u generalizing a with
  | nil => cases a <;> simp at h ⊢
  | cons x u ih =>
    cases a with
    | nil => simp at h
    | cons y a =>
      simp only [List.length_cons, Nat.add_right_cancel_iff] at h
      simp [ih a h]

/-- For at least two classes the comparison of `_check_target` is equality. -/
theorem allEqual_iff (l : List K) (k : Nat) (hk : 2 ≤ k) :
    allEqual (npUnique l) ((List.range k).map fun (i : Nat) => (i : K)) = true ↔
      npUnique l = (List.range k).map fun (i : Nat) => (i : K) := by
  have hlen : ((List.range k).map fun (i : Nat) => (i : K)).length = k := by simp
  have h01 : (0 : K) ∈ (List.range k).map fun (i : Nat) => (i : K) :=
    List.mem_map.2 ⟨0, List.mem_range.2 (by omega), by simp⟩
  have h11 : (1 : K) ∈ (List.range k).map fun (i : Nat) => (i : K) :=
    List.mem_map.2 ⟨1, List.mem_range.2 (by omega), by simp⟩
  unfold allEqual
  generalize (List.range k).map (fun (i : Nat) => (i : K)) = r at hlen h01 h11
  by_cases hl : (npUnique l).length = r.length
  · rw [if_pos hl, zipAll_eq _ _ hl]
  · rw [if_neg hl]
    refine ⟨fun h => ?_, fun h => absurd (by rw [h]) hl⟩
    split at h
    · next x =>
      rw [List.all_eq_true] at h
      have h0 := h 0 h01
      have h1 := h 1 h11
      simp only [decide_eq_true_eq] at h0 h1
      rw [h0] at h1
      exact absurd h1 (by simp)
    · simp at hlen; omega
    · cases h

theorem npUnique_eq_arange (l : List K) (k : Nat) :
    npUnique l = ((List.range k).map fun (i : Nat) => (i : K)) ↔ ClassesExactly k l := by
  have hm : ∀ v, v ∈ ((List.range k).map fun (i : Nat) => (i : K)) ↔ ∃ i < k, v = (i : K) := by
    intro v
    rw [List.mem_map]
    constructor
    · rintro ⟨i, hi, rfl⟩; exact ⟨i, List.mem_range.1 hi, rfl⟩
    · rintro ⟨i, hi, rfl⟩; exact ⟨i, List.mem_range.2 hi, rfl⟩
  constructor
  · intro h v
    rw [← mem_npUnique, h, hm]
  · intro h
    refine (npUnique_sorted l).eq_of_mem_iff (arange_sorted k) ?_
    intro v
    rw [mem_npUnique, hm, h v]

/-- C33: with a prior for at least two classes the target check passes iff the target is one-dimensional
and its set of values is `{0, ..., K - 1}`; otherwise it raises `ValueError`. -/
theorem C33_check (p : List K) (hp : 2 ≤ p.length) (z : NArr K) :
    (clsCheckTarget (some p) z = .ok () ↔ z.shape.length = 1 ∧ ClassesExactly p.length z.data) ∧
    (¬ (z.shape.length = 1 ∧ ClassesExactly p.length z.data) →
      clsCheckTarget (some p) z = .error .valueError) := by
  unfold clsCheckTarget
  have h := (allEqual_iff z.data p.length hp).trans (npUnique_eq_arange z.data p.length)
  by_cases hs : z.shape.length ≠ 1
  · simp [hs]
  · rw [if_neg hs]
    dsimp only
    push Not at hs
    by_cases hc : ClassesExactly p.length z.data
    · rw [if_pos (h.2 hc)]; simp [hs, hc]
    · rw [if_neg (fun h' => hc (h.1 h'))]; simp [hc]

/-- With a prior for a single class the check passes iff the target is one-dimensional and all its values are 0 (also for
no values at all, by broadcasting). -/
theorem C33_one_class (a : K) (z : NArr K) :
    clsCheckTarget (some [a]) z = .ok () ↔ z.shape.length = 1 ∧ ∀ v ∈ z.data, v = 0 := by
  have h : allEqual (npUnique z.data) [(0 : K)] = true ↔ ∀ v ∈ z.data, v = 0 := by
    have hall : (∀ v ∈ npUnique z.data, v = 0) ↔ ∀ v ∈ z.data, v = 0 := by
      constructor
      · exact fun h v hv => h v ((mem_npUnique _ _).2 hv)
      · exact fun h v hv => h v ((mem_npUnique _ _).1 hv)
    rw [← hall]
    unfold allEqual
    cases npUnique z.data with
    | nil => simp
    | cons x l =>
      cases l with
      | nil => simp
      | cons x' l => simp
  unfold clsCheckTarget
  by_cases hs : z.shape.length ≠ 1
  · rw [if_pos hs]
    simp [hs]
  · rw [if_neg hs]
    push Not at hs
    simp only [List.length_singleton, List.range_one, List.map_cons, List.map_nil, Nat.cast_zero, hs, true_and]
    rw [← h]
    split <;> simp_all

/-- An empty prior does not make the check fail: it passes iff the target is one-dimensional and constant. -/
theorem C33_no_class (z : NArr K) :
    clsCheckTarget (some []) z = .ok () ↔ z.shape.length = 1 ∧ ∀ v ∈ z.data, ∀ w ∈ z.data, v = w := by
  have h : allEqual (npUnique z.data) ([] : List K) = true ↔ ∀ v ∈ z.data, ∀ w ∈ z.data, v = w := by
    have hall : (∀ v ∈ npUnique z.data, ∀ w ∈ npUnique z.data, v = w) ↔ ∀ v ∈ z.data, ∀ w ∈ z.data, v = w := by
      simp only [mem_npUnique]
    have hn : (npUnique z.data).Pairwise (· < ·) := npUnique_sorted _
    rw [← hall]
    unfold allEqual
    revert hn
    cases npUnique z.data with
    | nil => simp
    | cons x l =>
      cases l with
      | nil => simp
      | cons x' l =>
        intro hn
        have hlt : x < x' := List.rel_of_pairwise_cons hn (by simp)
        simp only [List.length_cons, List.length_nil, Nat.add_eq_zero_iff, one_ne_zero, and_false, if_false]
        refine ⟨fun h => by simp at h, fun h => ?_⟩
        exact absurd (h x (by simp) x' (by simp)) hlt.ne
  unfold clsCheckTarget
  by_cases hs : z.shape.length ≠ 1
  · rw [if_pos hs]
    simp [hs]
  · rw [if_neg hs]
    push Not at hs
    simp only [List.length_nil, List.range_zero, List.map_nil, hs, true_and]
    rw [← h]
    split <;> simp_all

example : ClassesExactly (K := ℚ) 3 [2, 0, 1, 1, 2] := by
  intro v
  constructor
  · intro h
    simp only [List.mem_cons, List.not_mem_nil, or_false] at h
    rcases h with rfl | rfl | rfl | rfl | rfl
    exacts [⟨2, by omega, by norm_num⟩, ⟨0, by omega, by norm_num⟩, ⟨1, by omega, by norm_num⟩,
      ⟨1, by omega, by norm_num⟩, ⟨2, by omega, by norm_num⟩]
  · rintro ⟨i, hi, rfl⟩
    interval_cases i <;> simp

end c33

section fit
variable {E V E' K P S O A Sp : Type} [DecidableEq K]
  {k : Kit E V E' K P S O A Sp}

/-- The target check of a classification tree with a prior or of a regression tree: targets that are not
one-dimensional, and any others it rejects, give `ValueError`. -/
structure GoodCheck (check : Option P → NArr K → Except Err Unit) (prior : Option P) : Prop where
  shape : ∀ z, z.shape.length ≠ 1 → check prior z = .error .valueError
  error : ∀ z e, check prior z = .error e → e = .valueError

theorem regCheck_good (prior : Option P) : GoodCheck (K := K) regCheckTarget prior where
  shape z h := by unfold regCheckTarget; rw [if_pos h]
  error z e h := by
    unfold regCheckTarget at h
    split at h <;> cases h
    rfl

theorem clsCheck_good {K : Type} [LinearOrder K] [NatCast K] (p : List K) :
    GoodCheck (K := K) clsCheckTarget (some p) where
  shape z h := by unfold clsCheckTarget; rw [if_pos h]
  error z e h := by
    unfold clsCheckTarget at h
    split at h
    · cases h; rfl
    · dsimp only at h
      split at h <;> cases h
      rfl

theorem normalizeTarget_native (ob : ObjOps E' K) {shape : List Nat} {data : List K} {y : YInput E' K}
    (h : yNative shape data y) :
    ∃ dt, normalizeTarget ob y = .ok ⟨longAxes shape, dt, data⟩ := by
  unfold yNative at h
  split at h
  · obtain ⟨rfl, rfl⟩ := h; exact ⟨_, rfl⟩
  · obtain ⟨rfl, rfl⟩ := h; exact ⟨_, rfl⟩
  · exact h.elim

theorem expandAndName_native (a : NArr V) (names : Option (List String)) :
    (expandAndName (E := E) (.native a) names = .error .indexError ∧ a.shape = [] ∧ names = none) ∨
    ∃ ns, expandAndName (E := E) (.native a) names =
      .ok (.native { a with shape := matrixShape.rowShape a.shape }, ns) ∧
      (∀ l, names = some l → ns = l) ∧
      (names = none → ns = defaultNames ((matrixShape.rowShape a.shape).getD 1 0)) := by
  obtain ⟨shape, dt, data⟩ := a
  unfold expandAndName
  match shape with
  | [] =>
    cases names with
    | none => exact .inl ⟨rfl, rfl, rfl⟩
    | some l => exact .inr ⟨l, rfl, fun _ h => by cases h; rfl, fun h => by cases h⟩
  | [n] =>
    cases names with
    | none => exact .inr ⟨_, rfl, fun _ h => (by cases h), fun _ => rfl⟩
    | some l => exact .inr ⟨l, rfl, fun _ h => by cases h; rfl, fun h => by cases h⟩
  | n :: m :: r =>
    cases names with
    | none => exact .inr ⟨_, rfl, fun _ h => (by cases h), fun _ => rfl⟩
    | some l => exact .inr ⟨l, rfl, fun _ h => by cases h; rfl, fun h => by cases h⟩

/-- Normalisation of features that need no conversion. -/
theorem normalize_native (ob : ObjOps E V) {X : XInput E V} (hX : xNative X) {s : List Nat}
    (hs : matrixShape X = some s) (names : Option (List String)) :
    (s = [] ∧ names = none ∧ normalize ob X names = .error .indexError) ∨
    (s.length ≠ 2 ∧ normalize ob X names = .error .valueError) ∨
    (s.length = 2 ∧ ∃ x ns, normalize ob X names = .ok (x, ns) ∧ x.shape = s ∧ (∀ l, names = some l → ns = l)) := by
  have key : ∀ (a : NArr V), matrixShape.rowShape a.shape = s →
      toArrayAndNames X names = expandAndName (.native a) names →
      (s = [] ∧ names = none ∧ normalize ob X names = .error .indexError) ∨
      (s.length ≠ 2 ∧ normalize ob X names = .error .valueError) ∨
      (s.length = 2 ∧ ∃ x ns, normalize ob X names = .ok (x, ns) ∧ x.shape = s ∧
        (∀ l, names = some l → ns = l)) := by
    intro a ha he
    rcases expandAndName_native (E := E) a names with ⟨h1, h2, h3⟩ | ⟨ns, h1, h2, -⟩
    · refine .inl ⟨by rw [← ha, h2]; rfl, h3, ?_⟩
      unfold normalize; rw [he, h1]
    · right
      unfold normalize
      rw [he, h1]
      simp only [ensureFloat64, ha]
      by_cases hl : s.length = 2
      · exact .inr ⟨hl, _, ns, by rw [if_neg (by simpa using hl)], rfl, h2⟩
      · exact .inl ⟨hl, by rw [if_pos hl]⟩
  match X, hX, hs with
  | .frame cols (.native a), _, hs =>
    right
    have : a.shape = s := Option.some.inj hs
    unfold normalize
    simp only [toArrayAndNames, ensureFloat64, this]
    by_cases hl : s.length = 2
    · exact .inr ⟨hl, a, names.getD cols, by rw [if_neg (by simpa using hl)], this, fun l h => by rw [h]; rfl⟩
    · exact .inl ⟨hl, by rw [if_pos hl]⟩
  | .scalar (.native a), _, hs => exact key { a with shape := [1] } (Option.some.inj hs) rfl
  | .list (.native a), _, hs => exact key a (Option.some.inj hs) rfl
  | .array (.native a), _, hs => exact key a (Option.some.inj hs) rfl
  | .sparse a, _, hs => exact key a (Option.some.inj hs) rfl

/-- C32, what does hold: for data that needs no conversion, `fit` raises `ValueError` and leaves the model
exactly as it was if the squeezed target is not one-dimensional, the features do not form a
two-dimensional matrix, or the numbers of rows differ.  Missing from the full statement: a 0-dimensional
array without feature names (`C32_refuted`). -/
theorem C32_shapes_partial {self : Obj A S K P} (hc : GoodCheck k.check self.prior) {X : XInput E V}
    {y : YInput E' K} {names : Option (List String)} {sx sy : List Nat} {data : List K} (hX : xNative X)
    (hsx : matrixShape X = some sx) (hy : yNative sy data y)
    (h : (longAxes sy).length ≠ 1 ∨ (sx.length ≠ 2 ∧ (sx ≠ [] ∨ names ≠ none)) ∨
      (sx.length = 2 ∧ (longAxes sy).head? ≠ sx.head?)) :
    fitCall k self X y names = (self, some .valueError) := by
  apply fitCall_invalid
  obtain ⟨dt, hz⟩ := normalizeTarget_native k.obY hy
  unfold validate
  rw [hz]
  dsimp only
  cases hch : k.check self.prior ⟨longAxes sy, dt, data⟩ with
  | error e => rw [hc.error _ _ hch]
  | ok u =>
    dsimp only
    have h1 : (longAxes sy).length = 1 := by
      by_contra hne
      rw [hc.shape _ hne] at hch; cases hch
    rcases normalize_native k.obX hX hsx names with ⟨r1, r2, r3⟩ | ⟨r1, r2⟩ | ⟨r1, x, ns, r2, r3, -⟩
    · exfalso
      rcases h with h | ⟨-, h⟩ | ⟨h, -⟩
      · exact h h1
      · rcases h with h | h
        · exact h r1
        · exact h r2
      · rw [r1] at h; simp at h
    · rw [r2]
    · rw [r2]
      dsimp only
      rw [if_pos]
      have h3 : (longAxes sy).head? ≠ sx.head? := by
        rcases h with h | ⟨h, -⟩ | ⟨-, h⟩
        · exact absurd h1 h
        · exact absurd r1 h
        · exact h
      intro he
      apply h3
      unfold NArr.rows at he
      rw [r3] at he
      match sx, longAxes sy, r1, h1, he with
      | [a, b], [c], _, _, he => simpa using he.symm

/-- C32 is false as stated: a 0-dimensional feature array without feature names raises `IndexError`. -/
theorem C32_refuted {self : Obj A S K P} {y : YInput E' K} {z : NArr K} (a : Arr E V) (ha : a.shape = [])
    (hy : normalizeTarget k.obY y = .ok z) (hc : k.check self.prior z = .ok ()) :
    fitCall k self (.array a) y none = (self, some .indexError) := by
  apply fitCall_invalid
  unfold validate
  rw [hy]
  dsimp only
  rw [hc]
  dsimp only
  simp [normalize, toArrayAndNames, expandAndName, expandRow, ha]

/-- Failing validation never changes a model, whatever the exception. -/
theorem C32_unchanged {self : Obj A S K P} {X : XInput E V} {y : YInput E' K} {names : Option (List String)}
    {e : Err} (h : validate k self.prior X y names = .error e) :
    fitCall k self X y names = (self, some e) := fitCall_invalid h

/-- C33 for `fit`: a classification tree with a prior for at least two classes only accepts targets with
exactly the values `0, ..., K - 1`; other one-dimensional targets raise `ValueError` and leave the model as
it was. -/
theorem C33_fit {K : Type} [Field K] [LinearOrder K] [IsStrictOrderedRing K]
    {k : Kit E V E' K (List K) S O A Sp} (hk : k.check = clsCheckTarget) {self : Obj A S K (List K)}
    {p : List K} (hp : self.prior = some p) (h2 : 2 ≤ p.length) {X : XInput E V} {y : YInput E' K}
    {names : Option (List String)} {z : NArr K} (hy : normalizeTarget k.obY y = .ok z) :
    (¬ ClassesExactly p.length z.data → fitCall k self X y names = (self, some .valueError)) ∧
    ((fitCall k self X y names).2 = none → z.shape.length = 1 ∧ ClassesExactly p.length z.data) := by
  have hbad : ¬ (z.shape.length = 1 ∧ ClassesExactly p.length z.data) →
      fitCall k self X y names = (self, some .valueError) := by
    intro h
    apply fitCall_invalid
    unfold validate
    rw [hy]
    dsimp only
    rw [hk, hp, (C33_check p h2 z).2 h]
  refine ⟨fun h => hbad fun h' => h h'.2, fun h => ?_⟩
  by_contra hne
  rw [hbad hne] at h
  cases h

/-- C34 is false, for all data: a classification tree with `prior = None` never can be fitted; for every
target that is one-dimensional after conversion the exception is `TypeError`. -/
theorem C34_refuted {K : Type} [LinearOrder K] [NatCast K] {k : Kit E V E' K (List K) S O A Sp}
    (hk : k.check = clsCheckTarget) {self : Obj A S K (List K)} (hp : self.prior = none) (X : XInput E V)
    (y : YInput E' K) (names : Option (List String)) :
    (∃ e, fitCall k self X y names = (self, some e)) ∧
    (∀ z, normalizeTarget k.obY y = .ok z → z.shape.length = 1 →
      fitCall k self X y names = (self, some .typeError)) := by
  have hz : ∀ z : NArr K, k.check self.prior z =
      .error (if z.shape.length ≠ 1 then .valueError else .typeError) := by
    intro z
    rw [hk, hp]
    unfold clsCheckTarget
    split <;> rfl
  constructor
  · cases hy : normalizeTarget k.obY y with
    | error e => exact ⟨e, fitCall_invalid (by unfold validate; rw [hy])⟩
    | ok z => exact ⟨_, fitCall_invalid (by unfold validate; rw [hy]; dsimp only; rw [hz])⟩
  · intro z hy h1
    apply fitCall_invalid
    unfold validate
    rw [hy]
    dsimp only
    rw [hz, if_neg (by simpa using h1)]

theorem longAxes_ne_one (s : List Nat) : ∀ a ∈ longAxes s, a ≠ 1 := by
  intro a ha
  simpa using (List.mem_filter.1 ha).2

theorem squeeze_shape (a : Arr E' K) : a.squeeze.shape = longAxes a.shape := by
  cases a <;> rfl

omit [DecidableEq K] in
theorem ensureFloat64_shape (ob : ObjOps E' K) (a : Arr E' K) (z : NArr K) (h : ensureFloat64 ob a = .ok z) :
    z.shape = a.shape := by
  cases a with
  | native a => cases h; rfl
  | other s d =>
    obtain ⟨vs, -, rfl⟩ := (C37_lossless ob s d z).1 h
    rfl

theorem normalizeTarget_shape (ob : ObjOps E' K) (y : YInput E' K) (z : NArr K)
    (h : normalizeTarget ob y = .ok z) : ∀ a ∈ z.shape, a ≠ 1 := by
  have key : ∀ a : Arr E' K, ensureFloat64 ob a.squeeze = .ok z → ∀ b ∈ z.shape, b ≠ 1 := by
    intro a ha
    rw [ensureFloat64_shape ob _ z ha, squeeze_shape]
    exact longAxes_ne_one _
  cases y with
  | list a => exact key a h
  | array a => exact key a h
  | other => cases h

/-- C35 is false, for all models and data: a training set with one row is never accepted. -/
theorem C35_refuted {self : Obj A S K P} (hc : GoodCheck k.check self.prior) {X : XInput E V}
    {y : YInput E' K} {names : Option (List String)} {x : NArr V} {ns : List String}
    (hX : normalize k.obX X names = .ok (x, ns)) (h1 : x.rows = 1) :
    (∃ e, fitCall k self X y names = (self, some e)) ∧
    (∀ z, normalizeTarget k.obY y = .ok z → fitCall k self X y names = (self, some .valueError)) := by
  have key : ∀ z, normalizeTarget k.obY y = .ok z → fitCall k self X y names = (self, some .valueError) := by
    intro z hz
    apply fitCall_invalid
    unfold validate
    rw [hz]
    dsimp only
    cases hch : k.check self.prior z with
    | error e => rw [hc.error _ _ hch]
    | ok u =>
      dsimp only
      rw [hX]
      dsimp only
      rw [if_pos]
      rw [h1]
      intro he
      have hl : z.shape.length = 1 := by
        by_contra hne
        rw [hc.shape _ hne] at hch; cases hch
      unfold NArr.rows at he
      have hn := normalizeTarget_shape _ _ _ hz
      match z.shape, hl, he, hn with
      | [c], _, he, hn => exact hn c (by simp) (by simpa using he.symm)
  refine ⟨?_, key⟩
  cases hy : normalizeTarget k.obY y with
  | error e => exact ⟨e, fitCall_invalid (by unfold validate; rw [hy])⟩
  | ok z => exact ⟨_, key z hy⟩

/-- C35 is false, seen from the target: a target with one entry, whatever its number of axes, is rejected
with `ValueError`. -/
theorem C35_refuted_target {self : Obj A S K P} (hc : GoodCheck k.check self.prior) {X : XInput E V}
    {y : YInput E' K} {names : Option (List String)} {shape : List Nat} {v : K} (hy : yNative shape [v] y)
    (hs : ∀ a ∈ shape, a = 1) : fitCall k self X y names = (self, some .valueError) := by
  apply fitCall_invalid
  obtain ⟨dt, hz⟩ := normalizeTarget_native k.obY hy
  have hl : longAxes shape = [] := by
    unfold longAxes
    rw [List.filter_eq_nil_iff]
    intro a ha
    simp [hs a ha]
  unfold validate
  rw [hz]
  dsimp only
  rw [hc.shape _ (by rw [hl]; simp)]

end fit

section accept
variable {E V E' K P O : Type} [Field K] [LinearOrder K] [Inhabited V] [Inhabited K]

theorem normalize_names_length (ob : ObjOps E V) {X : XInput E V} {x : NArr V} {ns : List String}
    (h : normalize ob X none = .ok (x, ns)) (hf : ∀ cols v, X = .frame cols v → v.shape[1]? = some cols.length) :
    ns.length = x.cols := by
  have key : ∀ a : Arr E V, toArrayAndNames X none = expandAndName a none → ns.length = x.cols := by
    intro a ha
    unfold normalize at h
    rw [ha] at h
    unfold expandAndName at h
    dsimp only at h
    generalize expandRow a = b at h
    cases hb : b.shape[1]? with
    | none => rw [hb] at h; cases h
    | some m =>
      rw [hb] at h
      dsimp only at h
      cases hx : ensureFloat64 ob b with
      | error e => rw [hx] at h; cases h
      | ok w =>
        rw [hx] at h
        dsimp only at h
        split at h
        · cases h
        · cases h
          unfold defaultNames NArr.cols
          rw [ensureFloat64_shape ob b x hx, List.getD_eq_getElem?_getD, hb]
          simp
  cases X with
  | frame cols v =>
    have hv := hf cols v rfl
    unfold normalize at h
    simp only [toArrayAndNames, Option.getD_none] at h
    cases hx : ensureFloat64 ob v with
    | error e => rw [hx] at h; cases h
    | ok w =>
      rw [hx] at h
      dsimp only at h
      split at h
      · cases h
      · cases h
        unfold NArr.cols
        rw [ensureFloat64_shape ob v x hx, List.getD_eq_getElem?_getD, hv]
        rfl
  | scalar a => exact key _ rfl
  | list a => exact key _ rfl
  | array a => exact key _ rfl
  | sparse a => exact key _ rfl
  | other => cases h

/-- The fit context of normalised data. -/
def apiCtx (o : XOps V K) (T : Target K P K O) (pair : PairScore K P K) (hp : Hyper K) (x : NArr V)
    (z : NArr K) (ns : List String) : Ctx V K P K O where
  o := o
  T := T
  pair := pair
  hp := hp
  X := x.mat
  y := z.vec
  nDim := x.cols
  names := ns

theorem perpTree_fitIn (o : XOps V K) (T : Target K P K O) (pair : PairScore K P K)
    (argsort : List V → List Nat) (hp : Hyper K) (prior : Option P) (x : NArr V) (z : NArr K) (ns : List String)
    (t : PNode V K K P) :
    fitIn (apiCtx o T pair hp x z ns) argsort prior x.rows = .ok t ↔
      ∃ t0, perpTree o T argsort x z ns hp prior 0 = .ok t0 ∧ t = pruned T.predictLeaf hp t0 := by
  unfold fitIn perpFitRoot
  show (perpTree o T argsort x z ns hp prior 0 >>= fun t0 => if hp.prune = true then prune T.predictLeaf t0
    else pure t0) = .ok t ↔ _
  cases perpTree o T argsort x z ns hp prior 0 with
  | error e => exact ⟨fun h => (by cases h), fun ⟨_, h, _⟩ => by cases h⟩
  | ok t0 =>
    simp only [prune_eq, bind, Except.bind, pure, Except.pure]
    unfold pruned
    constructor
    · intro h
      refine ⟨t0, rfl, ?_⟩
      split at h <;> cases h <;> simp [*]
    · rintro ⟨_, h, rfl⟩
      cases h
      split <;> rfl

/-- Acceptance: a perpendicular model with valid parameters accepts every data set that passes validation,
has at least one column and at least as many feature names as columns, and then is the tree fitted to the
normalised data.  Together with `C33_check` and `regCheckTarget` this is the positive part of C34 and C35:
see `C34_fit_partial` and `C35_fit_partial`. -/
theorem perp_accepts {obX : ObjOps E V} {obY : ObjOps E' K} {check : Option P → NArr K → Except Err Unit}
    {o : XOps V K} {T : Target K P K O} {pair : PairScore K P K} {argsort : List V → List Nat}
    {fmt : Fmt (PSplit V) P} {ok : V → Prop} {hp : Hyper K} {prior : Option P} {a : Attrs (PAttr V) K P}
    {c1 c2 : PObj V K K P} {X : XInput E V} {y : YInput E' K} {names : Option (List String)} {x : NArr V}
    {z : NArr K} {ns : List String} (hX : normalize obX X names = .ok (x, ns))
    (hy : normalizeTarget obY y = .ok z) (hc : check prior z = .ok ()) (hrows : x.rows = z.rows)
    (hnames : x.cols ≤ ns.length) (hv : Valid ok (apiCtx o T pair hp x z ns) argsort x.rows) :
    ∃ t, fitIn (apiCtx o T pair hp x z ns) argsort prior x.rows = .ok t ∧
      fitCall (perpKit obX obY check o T argsort fmt) (.mk hp prior 0 a c1 c2) X y names =
        (perpObj t, none) := by
  obtain ⟨t, ht⟩ := C12_fit_terminates hv prior hnames
  refine ⟨t, ht, ?_⟩
  obtain ⟨t0, h0, rfl⟩ := (perpTree_fitIn o T pair argsort hp prior x z ns t).1 ht
  have hval : validate (perpKit obX obY check o T argsort fmt) prior X y names = .ok (x, z, ns) := by
    unfold validate perpKit
    dsimp only
    rw [hy]
    dsimp only
    rw [hc]
    dsimp only
    rw [hX]
    dsimp only
    rw [if_neg (by simpa using hrows)]
  exact fitCall_ok (perpKit_lawful obX obY check o T argsort fmt) hval h0

/-- C34, what does hold: with a prior for at least two classes a classification tree can be fitted to
every data set with those classes, `n ≥ 2` rows, at least one column and at least as many feature names as
columns.  Missing from the full statement: the default `prior = None` (`C34_refuted`). -/
theorem C34_fit_partial [IsStrictOrderedRing K] {obX : ObjOps E K} {obY : ObjOps E' K}
    (F : Fns K) {argsort : List K → List Nat} (hs : IsArgsort (exactOps K).le (fun _ => True) argsort)
    {fmt : Fmt (PSplit K) (List K)} {hp : Hyper K} (hprec : 0 ≤ hp.splitPrecision) {p : List K}
    (hpl : 2 ≤ p.length) {a : Attrs (PAttr K) K (List K)} {c1 c2 : PObj K K K (List K)} {X : XInput E K}
    {y : YInput E' K} {names : Option (List String)} {x : NArr K} {ns : List String} {n : Nat} {data : List K}
    (hX : normalize obX X names = .ok (x, ns)) (hy : yNative [n] data y) (hn : 2 ≤ n) (hn64 : n ≤ 2 ^ 64)
    (hcl : ClassesExactly p.length data) (hrows : x.rows = n) (hcols : 0 < x.cols)
    (hnames : x.cols ≤ ns.length) :
    ∃ t z, normalizeTarget obY y = .ok z ∧ z.data = data ∧
      fitIn (apiCtx (exactOps K) (clsTarget F) (clsPair F) hp x z ns) argsort (some p) n = .ok t ∧
      fitCall (perpKit obX obY clsCheckTarget (exactOps K) (clsTarget F) argsort fmt)
        (.mk hp (some p) 0 a c1 c2) X y names = (perpObj t, none) := by
  obtain ⟨dt, hz⟩ := normalizeTarget_native obY hy
  have hl : longAxes [n] = [n] := by
    unfold longAxes
    rw [List.filter_cons_of_pos (by simp; omega), List.filter_nil]
  rw [hl] at hz
  have hv : Valid (fun _ => True) (apiCtx (exactOps K) (clsTarget F) (clsPair F) hp x ⟨[n], dt, data⟩ ns)
      argsort x.rows :=
    { ops := exact_lawful hprec
      target := cls_lawful F
      sort := hs
      dims := hcols
      rows := by omega
      vals := fun _ _ _ _ => trivial }
  obtain ⟨t, h1, h2⟩ := perp_accepts (fmt := fmt) (a := a) (c1 := c1) (c2 := c2) hX hz
    ((C33_check p hpl _).1.2 ⟨rfl, hcl⟩) (by rw [hrows]; rfl) hnames hv
  rw [hrows] at h1
  exact ⟨t, _, hz, rfl, h1, h2⟩

/-- C35, what does hold: a regression tree can be fitted to every data set with `n ≥ 2` rows, at least one
column and at least as many feature names as columns, with any prior (also the default `None`).  Missing
from the full statement: `n = 1` (`C35_refuted`). -/
theorem C35_fit_partial [IsStrictOrderedRing K] {obX : ObjOps E K} {obY : ObjOps E' K}
    (F : Fns K) {argsort : List K → List Nat} (hs : IsArgsort (exactOps K).le (fun _ => True) argsort)
    {fmt : Fmt (PSplit K) (NG K)} {hp : Hyper K} (hprec : 0 ≤ hp.splitPrecision) {prior : Option (NG K)}
    {a : Attrs (PAttr K) K (NG K)} {c1 c2 : PObj K K K (NG K)} {X : XInput E K}
    {y : YInput E' K} {names : Option (List String)} {x : NArr K} {ns : List String} {n : Nat} {data : List K}
    (hX : normalize obX X names = .ok (x, ns)) (hy : yNative [n] data y) (hn : 2 ≤ n) (hn64 : n ≤ 2 ^ 64)
    (hrows : x.rows = n) (hcols : 0 < x.cols) (hnames : x.cols ≤ ns.length) :
    ∃ t z, normalizeTarget obY y = .ok z ∧ z.data = data ∧
      fitIn (apiCtx (exactOps K) (regTarget F) (regPair F) hp x z ns) argsort prior n = .ok t ∧
      fitCall (perpKit obX obY regCheckTarget (exactOps K) (regTarget F) argsort fmt)
        (.mk hp prior 0 a c1 c2) X y names = (perpObj t, none) := by
  obtain ⟨dt, hz⟩ := normalizeTarget_native obY hy
  have hl : longAxes [n] = [n] := by
    unfold longAxes
    rw [List.filter_cons_of_pos (by simp; omega), List.filter_nil]
  rw [hl] at hz
  have hv : Valid (fun _ => True) (apiCtx (exactOps K) (regTarget F) (regPair F) hp x ⟨[n], dt, data⟩ ns)
      argsort x.rows :=
    { ops := exact_lawful hprec
      target := reg_lawful F
      sort := hs
      dims := hcols
      rows := by omega
      vals := fun _ _ _ _ => trivial }
  obtain ⟨t, h1, h2⟩ := perp_accepts (fmt := fmt) (a := a) (c1 := c1) (c2 := c2) (prior := prior) hX hz
    (show regCheckTarget prior _ = .ok () from by unfold regCheckTarget; rw [if_neg (by simp)])
    (by rw [hrows]; rfl) hnames hv
  rw [hrows] at h1
  exact ⟨t, _, hz, rfl, h1, h2⟩

end accept

end BT
