import Verif.Spec.Closed
import Verif.Props.Greedy

/-!
# Closed form of contexts in exact arithmetic
-/

namespace BT
open Spec

set_option linter.unusedSectionVars false

section
variable {K : Type} [Field K] [LinearOrder K] [IsStrictOrderedRing K]

theorem zip_tail_mem {l : List K} (h : l.Pairwise (· ≤ ·)) {c : K × K} (hc : c ∈ l.zip l.tail) :
    ∀ a ∈ l.head?, a ≤ c.1 := by
  intro a ha
  have h1 : c.1 ∈ l := (List.of_mem_zip hc).1
  cases l with
  | nil => simp at hc
  | cons b l =>
    simp only [List.head?_cons, Option.mem_def, Option.some.injEq] at ha
    subst ha
    rcases List.mem_cons.1 h1 with e | e
    · exact e.ge
    · exact (List.pairwise_cons.1 h).1 _ e

theorem cuts_upper_sorted {prec : K} (hp : 0 ≤ prec) : ∀ (l : List K), l.Pairwise (· ≤ ·) →
    (((l.zip l.tail).filter fun c => decide (prec < |c.2 - c.1|)).map Prod.snd).Pairwise (· < ·)
  | [], _ => by simp
  | [_], _ => by simp
  | a :: b :: l, h => by
    have ih := cuts_upper_sorted hp (b :: l) (List.pairwise_cons.1 h).2
    simp only [List.tail_cons, List.zip_cons_cons, List.filter_cons] at ih ⊢
    split
    · rw [List.map_cons, List.pairwise_cons]
      refine ⟨fun v hv => ?_, ih⟩
      obtain ⟨c, hc, rfl⟩ := List.mem_map.1 hv
      obtain ⟨hc, hg⟩ := List.mem_filter.1 hc
      have hl := zip_tail_mem (List.pairwise_cons.1 h).2 hc b (by simp)
      have hne : c.1 ≠ c.2 := by
        intro e
        rw [e, sub_self, abs_zero, decide_eq_true_eq] at hg
        exact absurd hg (not_lt.2 hp)
      have hle : c.1 ≤ c.2 := by
        obtain ⟨i, hi⟩ := List.mem_iff_getElem?.1 hc
        have hi' : ((b :: l).zip (b :: l).tail)[i]? = some c := hi
        rw [List.getElem?_zip_eq_some, List.getElem?_tail] at hi'
        obtain ⟨h1, e1⟩ := List.getElem?_eq_some_iff.1 hi'.1
        obtain ⟨h2, e2⟩ := List.getElem?_eq_some_iff.1 hi'.2
        rw [← e1, ← e2]
        exact List.pairwise_iff_getElem.1 (List.pairwise_cons.1 h).2 i (i + 1) h1 h2 (by omega)
      exact lt_of_le_of_lt hl (lt_of_le_of_ne hle hne)
    · exact ih

theorem isCut_iff {prec : K} (hp : 0 ≤ prec) (X : Nat → Nat → K) (R : List Nat) (d : Nat) (c : K × K) :
    c ∈ cuts (exactOps K) prec X R d ↔ IsCut prec X R d c.1 c.2 := C13_cuts_exact hp X R d c.1 c.2

theorem exists_below (X : Nat → Nat → K) (d : Nat) (b : K) : ∀ (R : List Nat), (∃ i ∈ R, X i d < b) →
    ∃ m, (m ∈ R ∧ X m d < b) ∧ ∀ k ∈ R, X k d < b → X k d ≤ X m d
  | [], h => by simp at h
  | i :: R, h => by
    by_cases hR : ∃ j ∈ R, X j d < b
    · obtain ⟨m, ⟨hm, hb⟩, hmax⟩ := exists_below X d b R hR
      by_cases hi : X i d < b ∧ X m d < X i d
      · refine ⟨i, ⟨List.mem_cons_self, hi.1⟩, fun k hk hkb => ?_⟩
        rcases List.mem_cons.1 hk with rfl | hk
        · exact le_refl _
        · exact (hmax k hk hkb).trans hi.2.le
      · refine ⟨m, ⟨List.mem_cons_of_mem _ hm, hb⟩, fun k hk hkb => ?_⟩
        rcases List.mem_cons.1 hk with rfl | hk
        · exact not_lt.1 fun h' => hi ⟨hkb, h'⟩
        · exact hmax k hk hkb
    · obtain ⟨j, hj, hjb⟩ := h
      rcases List.mem_cons.1 hj with rfl | hj
      · refine ⟨j, ⟨List.mem_cons_self, hjb⟩, fun k hk hkb => ?_⟩
        rcases List.mem_cons.1 hk with rfl | hk
        · exact le_refl _
        · exact absurd ⟨k, hk, hkb⟩ hR
      · exact absurd ⟨j, hj, hjb⟩ hR

theorem cutCount_eq {prec : K} (hp : 0 ≤ prec) (X : Nat → Nat → K) (R : List Nat) (d : Nat) :
    (cuts (exactOps K) prec X R d).length = cutCount prec X R d := by
  have hs : (column (exactOps K) X R d).Pairwise (· ≤ ·) :=
    (column_sorted (exact_lawful hp) (X := X) (d := d) (R := R) fun _ _ => trivial).imp
      fun h => by simpa [exactOps] using h
  have hsorted : ((cuts (exactOps K) prec X R d).map Prod.snd).Pairwise (· < ·) :=
    cuts_upper_sorted hp _ hs
  have hnd : ((cuts (exactOps K) prec X R d).map Prod.snd).Nodup := hsorted.imp ne_of_lt
  unfold cutCount
  rw [← List.length_map Prod.snd]
  refine List.Perm.length_eq ((List.perm_ext_iff_of_nodup hnd ((List.nodup_dedup _).filter _)).2 fun b => ?_)
  simp only [List.mem_filter, List.mem_dedup, decide_eq_true_eq]
  constructor
  · intro hb
    obtain ⟨c, hc, rfl⟩ := List.mem_map.1 hb
    obtain ⟨⟨i, hi, ei⟩, ⟨j, hj, ej⟩, hlt, hg, hadj⟩ := (isCut_iff hp X R d c).1 hc
    refine ⟨List.mem_map.2 ⟨j, hj, ej⟩, ⟨i, hi, by rw [ei]; exact hlt⟩, fun k hk hkb => ?_⟩
    rcases hadj k hk with h | h
    · linarith
    · exact absurd hkb (not_lt.2 h)
  · rintro ⟨hb, ⟨i, hi, hib⟩, hall⟩
    obtain ⟨j, hj, ej⟩ := List.mem_map.1 hb
    -- the greatest observed value below `b`
    obtain ⟨m, hm, hmax⟩ := exists_below X d b R ⟨i, hi, hib⟩
    refine List.mem_map.2 ⟨(X m d, b), (isCut_iff hp X R d _).2 ⟨⟨m, hm.1, rfl⟩, ⟨j, hj, ej⟩, hm.2,
      hall m hm.1 hm.2, fun k hk => ?_⟩, rfl⟩
    rcases lt_or_ge (X k d) b with h | h
    · exact .inl (hmax k hk h)
    · exact .inr h

theorem passes_eq {S P : Type} (t : PNode K S K P) (addr : List Bool) (x : Nat → K) :
    passes (perpRouter (exactOps K)) t addr x = follows t addr x := by
  induction t generalizing addr with
  | leaf i => cases addr <;> simp [passes, follows]
  | split i sp l b c1 c2 ih1 ih2 =>
    cases addr with
    | nil => simp [passes, follows]
    | cons q bs =>
      rw [passes, follows, ih1, ih2]
      show (if decide (x sp.dim < sp.value) = true then _ else if decide (sp.value ≤ x sp.dim) = true then _ else _) = _
      by_cases h : x sp.dim < sp.value
      · simp [h]
      · simp [h, not_lt.1 h]

/-- The context of a fit of one of the code's models in exact arithmetic. -/
abbrev exactCtx {P O : Type} (T : Target K P K O) (pair : PairScore K P K) (hp : Hyper K) (X : Nat → Nat → K)
    (y : Nat → K) (nDim : Nat) (names : List String) : Ctx K K P K O :=
  ⟨exactOps K, T, pair, hp, X, y, nDim, names⟩

theorem routed_eq {P O : Type} (T : Target K P K O) (pair : PairScore K P K) (hp : Hyper K) (X : Nat → Nat → K)
    (y : Nat → K) (nDim : Nat) (names : List String) (t : PNode K K K P) (n : Nat) (addr : List Bool) :
    routed (exactCtx T pair hp X y nDim names) t n addr = rowsAt X t n addr := by
  unfold routed rowsAt
  exact List.filter_congr fun i _ => passes_eq t addr (X i)

/-- What the closed theorems use of the two targets. -/
structure Textbook (F : Fns K) {P O : Type} (T : Target K P K O) (ml : P → List K → K) (post : P → List K → P) :
    Prop where
  prior : ∀ p n d, T.getPrior (some p) n d = p
  lawful : LawfulTarget T fun pp lv p nd ns a b =>
    F.log (pp ^ (lv + 1) / ((ns : K) * (nd : K))) + ml p a + ml p b
  stay : ∀ pp lv ys p, ys ≠ [] → T.logNoSplit pp lv ys p = F.log (1 - pp ^ (lv + 1)) + ml p ys
  post : ∀ ys p, ys ≠ [] → T.posterior ys p 1 = post p ys

theorem Spec.CodeTarget.textbook {F : Fns K} {P O : Type} {T : Target K P K O} {ml : P → List K → K}
    {post : P → List K → P} (h : CodeTarget F T ml post) : Textbook F T ml post := by
  cases h with
  | classification =>
    exact ⟨fun _ _ _ => rfl, cls_lawful F, fun pp lv ys p _ => clsLogNoSplit_eq F pp lv ys p,
      fun ys p _ => clsPosterior_one ys p⟩
  | regression =>
    exact ⟨fun _ _ _ => rfl, reg_lawful F, fun pp lv ys p h => regLogNoSplit_eq F pp lv ys p h,
      fun ys p h => regPosterior_one ys p h⟩

end

end BT
