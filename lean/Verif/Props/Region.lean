import Verif.Props.Predict
import Verif.Lemmas.RegSample

/-!
# Properties of prediction: C07 (convex hull), C59 (tested features and boxes)
-/

namespace BT
open Spec

section hull
variable {K : Type} [Field K] [LinearOrder K] [IsStrictOrderedRing K]

theorem sum_bounds (l : List K) (lo hi : K) (h : ∀ v ∈ l, lo ≤ v ∧ v ≤ hi) :
    (l.length : K) * lo ≤ l.sum ∧ l.sum ≤ (l.length : K) * hi := by
  induction l with
  | nil => simp
  | cons a l ih =>
    obtain ⟨h1, h2⟩ := ih fun v hv => h v (by simp [hv])
    obtain ⟨g1, g2⟩ := h a (by simp)
    simp only [List.length_cons, List.sum_cons, Nat.cast_add, Nat.cast_one]
    constructor <;> linarith

/-- The updated mean is a weighted average of the prior mean and the targets. -/
theorem regPosterior_hull (ys : List K) (p : NG K) (δ lo hi : K) (hδ : 0 ≤ δ)
    (hp : lo ≤ p.mu ∧ p.mu ≤ hi ∧ 0 < p.kappa) (hy : ∀ v ∈ ys, lo ≤ v ∧ v ≤ hi) (hne : ys ≠ []) :
    lo ≤ (regPosterior ys p δ).mu ∧ (regPosterior ys p δ).mu ≤ hi ∧ 0 < (regPosterior ys p δ).kappa := by
  obtain ⟨h1, h2, hk⟩ := hp
  unfold regPosterior
  split
  · exact ⟨h1, h2, hk⟩
  · have hn : (0 : K) < (ys.length : K) := by
      exact_mod_cast List.length_pos_iff.2 hne
    obtain ⟨s1, s2⟩ := sum_bounds ys lo hi hy
    have hnd : 0 ≤ (ys.length : K) * δ := mul_nonneg hn.le hδ
    have hkp : 0 < p.kappa + (ys.length : K) * δ := by linarith
    simp only [ngPosterior]
    have m1 : lo ≤ ys.sum / (ys.length : K) := (le_div_iff₀ hn).2 (by linarith)
    have m2 : ys.sum / (ys.length : K) ≤ hi := (div_le_iff₀ hn).2 (by linarith)
    have e : (ys.length : K) * δ * ys.sum / (ys.length : K)
        = (ys.length : K) * δ * (ys.sum / (ys.length : K)) := by ring
    rw [e]
    refine ⟨(le_div_iff₀ hkp).2 ?_, (div_le_iff₀ hkp).2 ?_, hkp⟩
    · have := mul_le_mul_of_nonneg_left h1 hk.le
      have := mul_le_mul_of_nonneg_left m1 hnd
      linarith
    · have := mul_le_mul_of_nonneg_left h2 hk.le
      have := mul_le_mul_of_nonneg_left m2 hnd
      linarith

/-- C07: every regression prediction lies between any bounds of the (effective) prior mean and the
training targets, hence between their minimum and maximum. -/
theorem C07_regression_hull {V : Type} {ok : V → Prop} {F : Fns K} {c : Ctx V K (NG K) K K}
    (hcT : c.T = regTarget F) (hex : Exclusive (perpRouter c.o)) {argsort : List V → List Nat} {n : Nat}
    (hv : Valid ok c argsort n) (hn : 0 < n) {prior : Option (NG K)} {t : PNode V K K (NG K)}
    (h : fitIn c argsort prior n = .ok t) (hδ : 0 ≤ c.hp.delta) (lo hi : K)
    (hprior : ∀ p, prior = some p → lo ≤ p.mu ∧ p.mu ≤ hi ∧ 0 < p.kappa)
    (hdef : prior = none → lo ≤ 0 ∧ 0 ≤ hi)
    (hy : ∀ i < n, lo ≤ c.y i ∧ c.y i ≤ hi)
    (X : Nat → Nat → V) (m i : Nat) (hi' : i < m) :
    ∃ v, (predict (perpRouter c.o) c.T t X m)[i]? = some v ∧
      ((lo ≤ v ∧ v ≤ hi) ∨ (v = 0 ∧ walk (perpRouter c.o) t (X i) = none)) := by
  have hq : lo ≤ (c.T.getPrior prior n c.nDim).mu ∧ (c.T.getPrior prior n c.nDim).mu ≤ hi ∧
      0 < (c.T.getPrior prior n c.nDim).kappa := by
    rw [hcT]
    cases prior with
    | some p => exact hprior p rfl
    | none =>
      obtain ⟨h1, h2⟩ := hdef rfl
      refine ⟨h1, h2, ?_⟩
      show (0 : K) < ((max 1 (n / 100) : Nat) : K)
      exact_mod_cast lt_of_lt_of_le Nat.zero_lt_one (le_max_left _ _)
  have hys : ∀ R' : List Nat, (∀ i ∈ R', i < n) → ∀ v ∈ c.ys R', lo ≤ v ∧ v ≤ hi := by
    intro R' hR v hv
    obtain ⟨j, hj, rfl⟩ := List.mem_map.1 hv
    exact hy j (hR j hj)
  have inv := fit_inv hv hn h (fun p => lo ≤ p.mu ∧ p.mu ≤ hi ∧ 0 < p.kappa) hq
    (by
      intro R' hne hR p hp
      rw [hcT]
      exact regPosterior_hull _ p 1 lo hi zero_le_one hp (hys R' hR) (by simpa [Ctx.ys] using hne))
    (by
      intro _ R' hne hR p hp
      rw [hcT]
      exact regPosterior_hull _ p _ lo hi hδ hp (hys R' hR) (by simpa [Ctx.ys] using hne))
  rw [(C01_predict_is_walk _ hex c.T t X m).2 i hi']
  cases hw : walk (perpRouter c.o) t (X i) with
  | none => exact ⟨_, rfl, Or.inr ⟨rfl, rfl⟩⟩
  | some l =>
    obtain ⟨addr, ha, -⟩ := (walk_iff _ _ _ _).1 hw
    obtain ⟨⟨h1, h2, -⟩, -⟩ := inv addr _ ha
    refine ⟨_, rfl, Or.inl ?_⟩
    rw [hcT]
    exact ⟨h1, h2⟩

/-- C07 with exact comparisons: no exception. -/
theorem C07_regression_hull_exact {F : Fns K} {c : Ctx K K (NG K) K K}
    (hcT : c.T = regTarget F) (hco : c.o = exactOps K) {ok : K → Prop} {argsort : List K → List Nat}
    {n : Nat} (hv : Valid ok c argsort n) (hn : 0 < n) {prior : Option (NG K)} {t : PNode K K K (NG K)}
    (h : fitIn c argsort prior n = .ok t) (hδ : 0 ≤ c.hp.delta) (lo hi : K)
    (hprior : ∀ p, prior = some p → lo ≤ p.mu ∧ p.mu ≤ hi ∧ 0 < p.kappa)
    (hdef : prior = none → lo ≤ 0 ∧ 0 ≤ hi)
    (hy : ∀ i < n, lo ≤ c.y i ∧ c.y i ≤ hi)
    (X : Nat → Nat → K) (m i : Nat) (hi' : i < m) :
    ∃ v, (predict (perpRouter c.o) c.T t X m)[i]? = some v ∧ lo ≤ v ∧ v ≤ hi := by
  obtain ⟨v, e, h1 | ⟨-, h2⟩⟩ := C07_regression_hull hcT (by rw [hco]; exact exact_exclusive) hv hn h hδ
    lo hi hprior hdef hy X m i hi'
  · exact ⟨v, e, h1⟩
  · obtain ⟨l, hl⟩ := walk_total (perpRouter c.o) (X i)
      (fun sp => by rw [hco]; exact exact_complementary sp (X i)) t
    rw [hl] at h2; cases h2

end hull

/-- C07 applies to a regression fit with a split: targets 1 and 3, prior mean 0. -/
example (X : Nat → Nat → ℝ) : ∃ v, (predict (perpRouter (exactOps ℝ)) (regTarget realFns)
      (regTree2 ⟨0, 1, 1, 1⟩ 1 3 0 false) X 1)[0]? = some v ∧ 0 ≤ v ∧ v ≤ 3 :=
  C07_regression_hull_exact (c := regCtx2 ⟨0, 1, 1, 1⟩ 1 3 0 false) (F := realFns) rfl rfl
    (regCtx2_valid _ _ _ _ _) (by decide) (regTree2_fit _ _ _ _) (le_refl _) 0 3
    (by rintro p ⟨⟩; norm_num) (by simp)
    (by intro i _; simp only [regCtx2]; split <;> norm_num) X 1 0 (by decide)

section region

/-- C59: the leaf reached only depends on the features tested on the way. -/
theorem C59_only_tested {V S K P : Type} (o : XOps V K) (t : PNode V S K P) (x x' : Nat → V)
    (h : ∀ d ∈ tested o t x, x' d = x d) : walk (perpRouter o) t x' = walk (perpRouter o) t x := by
  induction t with
  | leaf i => rfl
  | split i sp l b c1 c2 ih1 ih2 =>
    have hd : x' sp.dim = x sp.dim := h _ (by simp [tested])
    have g1 : (perpRouter o).goes1 sp x' = (perpRouter o).goes1 sp x := by simp only [perpRouter, hd]
    have g2 : (perpRouter o).goes2 sp x' = (perpRouter o).goes2 sp x := by simp only [perpRouter, hd]
    simp only [walk, g1, g2]
    have e1 : (perpRouter o).goes1 sp x = o.lt (x sp.dim) sp.value := rfl
    have e2 : (perpRouter o).goes2 sp x = o.ge (x sp.dim) sp.value := rfl
    by_cases h1 : o.lt (x sp.dim) sp.value = true
    · rw [if_pos (e1.trans h1), if_pos (e1.trans h1)]
      exact ih1 fun d hd => h d (by simp [tested, h1, hd])
    · have n1 : ¬ (perpRouter o).goes1 sp x = true := by rw [e1]; exact h1
      rw [if_neg n1, if_neg n1]
      by_cases h2 : o.ge (x sp.dim) sp.value = true
      · rw [if_pos (e2.trans h2), if_pos (e2.trans h2)]
        exact ih2 fun d hd => h d (by simp [tested, h1, h2, hd])
      · have n2 : ¬ (perpRouter o).goes2 sp x = true := by rw [e2]; exact h2
        rw [if_neg n2, if_neg n2]

/-- C59: changing untested features of any rows of the batch does not change `predict`. -/
theorem C59_predict_only_tested {V S K P O : Type} [Zero K] (o : XOps V K)
    (hex : Exclusive (perpRouter o)) (T : Target K P S O) (t : PNode V S K P) (X X' : Nat → Nat → V)
    (m i : Nat) (hi : i < m) (h : ∀ d ∈ tested o t (X i), X' i d = X i d) :
    (predict (perpRouter o) T t X' m)[i]? = (predict (perpRouter o) T t X m)[i]? := by
  rw [(C01_predict_is_walk _ hex T t X m).2 i hi, (C01_predict_is_walk _ hex T t X' m).2 i hi,
    C59_only_tested o t _ _ h]

variable {S K P : Type} [Field K] [LinearOrder K]

/-- C59: the rows that pass through a node form an axis-parallel box. -/
theorem C59_box (t : PNode K S K P) (addr : List Bool) (u : PNode K S K P) (hu : nodeAt t addr = some u) :
    ∃ lo hi : Nat → Option K, ∀ x, passes (perpRouter (exactOps K)) t addr x = true ↔ inBox lo hi x := by
  induction t generalizing addr with
  | leaf i =>
    cases addr with
    | nil => exact ⟨fun _ => none, fun _ => none, fun x => by simp [passes, inBox]⟩
    | cons b bs => simp [nodeAt] at hu
  | split i sp l b c1 c2 ih1 ih2 =>
    cases addr with
    | nil => exact ⟨fun _ => none, fun _ => none, fun x => by simp [passes, inBox]⟩
    | cons a as =>
      have e1 : ∀ x, (perpRouter (exactOps K)).goes1 sp x = decide (x sp.dim < sp.value) := fun _ => rfl
      have e2 : ∀ x, (perpRouter (exactOps K)).goes2 sp x = decide (sp.value ≤ x sp.dim) := fun _ => rfl
      cases a with
      | false =>
        obtain ⟨lo, hi, hb⟩ := ih1 as (by simpa [nodeAt] using hu)
        refine ⟨lo, fun d => if d = sp.dim then some (match hi d with
          | some b => min b sp.value
          | none => sp.value) else hi d, fun x => ?_⟩
        have : passes (perpRouter (exactOps K)) (.split i sp l b c1 c2) (false :: as) x = true ↔
            x sp.dim < sp.value ∧ passes (perpRouter (exactOps K)) c1 as x = true := by
          simp only [passes, e1, e2, decide_eq_true_eq]
          by_cases h : x sp.dim < sp.value
          · rw [if_pos h]; simp [h]
          · rw [if_neg h, if_pos (not_lt.1 h)]; simp [h]
        rw [this, hb]
        constructor
        · rintro ⟨h1, h2⟩ d
          refine ⟨(h2 d).1, fun b hb' => ?_⟩
          by_cases hd : d = sp.dim
          · subst hd
            simp only [if_true, Option.some.injEq] at hb'
            subst hb'
            cases hhi : hi sp.dim with
            | none => exact h1
            | some b => exact lt_min ((h2 sp.dim).2 b hhi) h1
          · simp only [if_neg hd] at hb'
            exact (h2 d).2 b hb'
        · intro h2
          refine ⟨?_, fun d => ⟨(h2 d).1, fun b hb' => ?_⟩⟩
          · have := (h2 sp.dim).2 _ (if_pos rfl)
            cases hhi : hi sp.dim with
            | none => rw [hhi] at this; exact this
            | some b => rw [hhi] at this; exact lt_of_lt_of_le this (min_le_right _ _)
          · by_cases hd : d = sp.dim
            · subst hd
              have := (h2 sp.dim).2 _ (if_pos rfl)
              rw [hb'] at this; exact lt_of_lt_of_le this (min_le_left _ _)
            · exact (h2 d).2 b (by simp only [if_neg hd]; exact hb')
      | true =>
        obtain ⟨lo, hi, hb⟩ := ih2 as (by simpa [nodeAt] using hu)
        refine ⟨fun d => if d = sp.dim then some (match lo d with
          | some b => max b sp.value
          | none => sp.value) else lo d, hi, fun x => ?_⟩
        have : passes (perpRouter (exactOps K)) (.split i sp l b c1 c2) (true :: as) x = true ↔
            sp.value ≤ x sp.dim ∧ passes (perpRouter (exactOps K)) c2 as x = true := by
          simp only [passes, e1, e2, decide_eq_true_eq]
          by_cases h : x sp.dim < sp.value
          · rw [if_pos h]; simp [h]
          · rw [if_neg h, if_pos (not_lt.1 h)]; simp [not_lt.1 h]
        rw [this, hb]
        constructor
        · rintro ⟨h1, h2⟩ d
          refine ⟨fun b hb' => ?_, (h2 d).2⟩
          by_cases hd : d = sp.dim
          · subst hd
            simp only [if_true, Option.some.injEq] at hb'
            subst hb'
            cases hlo : lo sp.dim with
            | none => exact h1
            | some b => exact max_le ((h2 sp.dim).1 b hlo) h1
          · simp only [if_neg hd] at hb'
            exact (h2 d).1 b hb'
        · intro h2
          refine ⟨?_, fun d => ⟨fun b hb' => ?_, (h2 d).2⟩⟩
          · have := (h2 sp.dim).1 _ (if_pos rfl)
            cases hlo : lo sp.dim with
            | none => rw [hlo] at this; exact this
            | some b => rw [hlo] at this; exact le_trans (le_max_right _ _) this
          · by_cases hd : d = sp.dim
            · subst hd
              have := (h2 sp.dim).1 _ (if_pos rfl)
              rw [hb'] at this; exact le_trans (le_max_left _ _) this
            · exact (h2 d).1 b (by simp only [if_neg hd]; exact hb')

/-- C59: the boxes of the leaves partition the feature space: every row passes to exactly one leaf. -/
theorem C59_boxes_partition (t : PNode K S K P) (x : Nat → K) :
    ∃! addr, (∃ l, nodeAt t addr = some (.leaf l)) ∧ passes (perpRouter (exactOps K)) t addr x = true := by
  obtain ⟨l, hl⟩ := walk_total (perpRouter (exactOps K)) x (fun sp => exact_complementary sp x) t
  obtain ⟨addr, ha, hp⟩ := (walk_iff _ _ _ _).1 hl
  refine ⟨addr, ⟨⟨l, ha⟩, hp⟩, ?_⟩
  rintro addr' ⟨⟨l', ha'⟩, hp'⟩
  exact passes_unique _ t x _ _ ha' hp' ha hp

/-- C59: in a fitted tree no box is empty, each contains a training row. -/
theorem C59_fitted_box_nonempty {O : Type} [LinearOrder S] [IsStrictOrderedRing K] {ok : K → Prop}
    {c : Ctx K K P S O} (hco : c.o = exactOps K) {argsort : List K → List Nat} {n : Nat} (hn : 0 < n)
    (hv : Valid ok c argsort n) {prior : Option P} {t : PNode K S K P}
    (h : fitIn c argsort prior n = .ok t) (addr : List Bool) (u : PNode K S K P)
    (hu : nodeAt t addr = some u) : ∃ i < n, passes (perpRouter (exactOps K)) t addr (c.X i) = true := by
  have := (fit_inv hv hn h (fun _ => True) trivial (fun _ _ _ _ _ => trivial)
    (fun _ _ _ _ _ _ => trivial) addr u hu).2.2.2.2
  obtain ⟨par', pa', u0, hB, e, -⟩ := fit_node hv h hu
  rw [e, Built.nData hB] at this
  rw [← hco]
  obtain ⟨i, hi⟩ := List.exists_mem_of_length_pos this
  obtain ⟨h1, h2⟩ := List.mem_filter.1 hi
  exact ⟨i, List.mem_range.1 h1, by simpa using h2⟩

end region

/-- C59 on the sample tree: only feature 0 is tested, once or twice depending on the row. -/
example : tested (exactOps ℚ) sampleTree (fun _ => 1) = [0] ∧
    tested (exactOps ℚ) sampleTree (fun _ => 3) = [0, 0] ∧
    nodeAt sampleTree [true, false] = some (.leaf ⟨sampleHp, some [1, 1], 2, none, 4, [1, 5]⟩) := by
  decide +kernel

end BT
