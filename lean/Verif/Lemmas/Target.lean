import Verif.Spec.Target
import Mathlib.Algebra.Order.BigOperators.Group.List
import Mathlib.Algebra.BigOperators.Ring.List
import Mathlib.Tactic.Ring
import Mathlib.Tactic.FieldSimp
import Mathlib.Tactic.Linarith
import Mathlib.Tactic.Positivity

/-!
# The implemented likelihoods are the textbook ones
-/

namespace BT
open Spec

section cumsum
variable {α : Type} [AddMonoid α]

theorem cumsumFrom_length (a : α) (l : List α) : (cumsumFrom a l).length = l.length := by
  induction l generalizing a with
  | nil => rfl
  | cons x xs ih => simp [cumsumFrom, ih]

theorem cumsum_length (l : List α) : (cumsum l).length = l.length := cumsumFrom_length 0 l

theorem cumsumFrom_get (a : α) (l : List α) (j : Nat) (hj : j < l.length) :
    (cumsumFrom a l)[j]? = some (a + (l.take (j + 1)).sum) := by
  induction l generalizing a j with
  | nil => simp at hj
  | cons x xs ih =>
    cases j with
    | zero => simp [cumsumFrom]
    | succ j =>
      simp only [List.length_cons] at hj
      simp only [cumsumFrom, List.getElem?_cons_succ]
      rw [ih (a + x) j (by omega)]
      simp [add_assoc]

theorem cumsum_get (l : List α) (j : Nat) (hj : j < l.length) :
    (cumsum l)[j]? = some (l.take (j + 1)).sum := by
  unfold cumsum
  rw [cumsumFrom_get 0 l j hj, zero_add]

theorem cumsum_last (l : List α) : (cumsum l).getLastD 0 = l.sum := by
  rcases Nat.eq_zero_or_pos l.length with h | h
  · rw [List.eq_nil_of_length_eq_zero h]; rfl
  · rw [List.getLastD_eq_getLast?, List.getLast?_eq_getElem?, cumsum_length,
      cumsum_get l (l.length - 1) (by omega), Nat.sub_add_cancel h, List.take_length]
    rfl

end cumsum

section cls
variable {K : Type} [Field K] [LinearOrder K]

theorem classCount_eq (y : List K) (i : Nat) : classCount y i = count y i := by
  unfold classCount count
  rw [List.countP_eq_length_filter]

theorem indicator_sum (y : List K) (i : Nat) :
    (y.map fun v => if v = (i : K) then 1 else 0).sum = count y i := by
  induction y with
  | nil => rfl
  | cons a l ih =>
    simp only [List.map_cons, List.sum_cons, ih, count, List.filter_cons]
    by_cases h : a = (i : K)
    · simp [h]; omega
    · simp [h]

theorem count_append (a b : List K) (i : Nat) : count (a ++ b) i = count a i + count b i := by
  simp [count]

theorem count_perm {a b : List K} (h : a.Perm b) (i : Nat) : count a i = count b i :=
  (h.filter _).length_eq

theorem classCumsum_get (y : List K) (i s : Nat) (h1 : 1 ≤ s) (h2 : s ≤ y.length) :
    (classCumsum y i).getD (s - 1) 0 = count (y.take s) i := by
  unfold classCumsum
  rw [List.getD_eq_getElem?_getD, cumsum_get _ _ (by simp; omega), Nat.sub_add_cancel h1,
    ← List.map_take, indicator_sum]
  rfl

theorem classCumsum_last (y : List K) (i : Nat) : (classCumsum y i).getLastD 0 = count y i := by
  unfold classCumsum
  rw [cumsum_last, indicator_sum]

omit [LinearOrder K] in
theorem multivariateBetaln_eq (F : Fns K) (l : List K) : multivariateBetaln F l = logBeta F l := by
  unfold multivariateBetaln logBeta
  match l with
  | [] => simp
  | [a] => simp
  | [a, b] => simp
  | a :: b :: c :: r => simp

theorem clsPosterior_one (y prior : List K) : clsPosterior y prior 1 = dirichletPosterior prior y := by
  unfold clsPosterior dirichletPosterior
  rw [if_neg one_ne_zero]
  simp [classCount_eq]

theorem zipWith_counts (prior y : List K) :
    List.zipWith (fun (a : K) (c : Nat) => a + (c : K)) prior
      ((List.range prior.length).map fun i => count y i) = dirichletPosterior prior y := by
  unfold dirichletPosterior
  apply List.ext_getElem
  · simp
  · intro i h1 h2
    simp

/-- The vectorised split scores of classification are the pair scores. -/
theorem clsLogSplit_eq (F : Fns K) (pp : K) (lv : Nat) (y prior : List K) (nd : Nat)
    (si : List Nat) (hsi : ∀ k ∈ si, 1 ≤ k ∧ k < y.length) :
    clsLogSplit F pp lv y prior nd si =
      si.map fun k => clsPair F pp lv prior nd si.length (y.take k) (y.drop k) := by
  unfold clsLogSplit
  simp only
  apply List.ext_getElem
  · simp
  · intro j h1 h2
    have hj : j < si.length := by simpa using h2
    have hk := hsi si[j] (List.getElem_mem hj)
    have e1 : (List.map (fun r => r.getD j 0) (List.map
        (fun i => List.map (fun s => (classCumsum y i).getD (s - 1) 0) si) (List.range prior.length))) =
        (List.range prior.length).map fun i => count (y.take si[j]) i := by
      rw [List.map_map]
      apply List.map_congr_left
      intro i _
      simp only [Function.comp, List.getD_eq_getElem?_getD, List.getElem?_map,
        List.getElem?_eq_getElem hj, Option.map_some, Option.getD_some]
      rw [← List.getD_eq_getElem?_getD, classCumsum_get y i _ hk.1 hk.2.le]
    have e2 : (List.map (fun r => r.getD j 0) (List.map (fun i => List.map
        (fun c => (classCumsum y i).getLastD 0 - c)
        ((List.map (fun i => List.map (fun s => (classCumsum y i).getD (s - 1) 0) si)
          (List.range prior.length)).getD i [])) (List.range prior.length))) =
        (List.range prior.length).map fun i => count (y.drop si[j]) i := by
      rw [List.map_map]
      apply List.map_congr_left
      intro i hi
      rw [List.mem_range] at hi
      simp only [Function.comp, List.getD_eq_getElem?_getD, List.getElem?_map,
        List.getElem?_range hi, List.getElem?_eq_getElem hj, Option.map_some, Option.getD_some]
      rw [← List.getD_eq_getElem?_getD, classCumsum_get y i _ hk.1 hk.2.le, classCumsum_last]
      have := count_append (y.take si[j]) (y.drop si[j]) i
      rw [List.take_append_drop] at this
      omega
    simp only [List.getElem_map, List.getElem_range]
    rw [e1, e2]
    unfold clsLogPData clsPair logSplitPrior dirichletMarginal
    rw [zipWith_counts, zipWith_counts, multivariateBetaln_eq, multivariateBetaln_eq,
      multivariateBetaln_eq, Nat.add_comm 1 lv]

theorem dirichletPosterior_perm (prior : List K) {a b : List K} (h : a.Perm b) :
    dirichletPosterior prior a = dirichletPosterior prior b := by
  unfold dirichletPosterior
  simp only [count_perm h]

/-- The classification target model satisfies what the fit needs. -/
theorem cls_lawful (F : Fns K) : LawfulTarget (clsTarget F) (clsPair F) where
  getPrior_some _ _ _ := rfl
  posterior_perm y y' prior delta h := by
    show clsPosterior y prior delta = clsPosterior y' prior delta
    unfold clsPosterior
    simp only [classCount_eq, count_perm h]
  noSplit_perm pp lv y y' prior h := by
    show clsLogNoSplit F pp lv y prior = clsLogNoSplit F pp lv y' prior
    unfold clsLogNoSplit
    simp only [clsPosterior_one, dirichletPosterior_perm prior h]
  pair_perm pp lv prior nd ns a a' b b' ha hb := by
    unfold clsPair dirichletMarginal
    rw [dirichletPosterior_perm prior ha, dirichletPosterior_perm prior hb]
  logSplit_eq pp lv y prior nd si hsi _ := clsLogSplit_eq F pp lv y prior nd si hsi

theorem clsLogNoSplit_eq (F : Fns K) (pp : K) (lv : Nat) (y prior : List K) :
    clsLogNoSplit F pp lv y prior = logStayPrior F pp lv + dirichletMarginal F prior y := by
  unfold clsLogNoSplit logStayPrior dirichletMarginal
  simp only [clsPosterior_one, multivariateBetaln_eq, Nat.add_comm 1 lv]

end cls

section reg
variable {K : Type} [Field K] [LinearOrder K] [IsStrictOrderedRing K]

omit [IsStrictOrderedRing K] [LinearOrder K] in
theorem sum_sq_dev (ys : List K) (c : K) :
    (ys.map fun v => (v - c) ^ 2).sum =
      (ys.map fun v => v ^ 2).sum - 2 * c * ys.sum + (ys.length : K) * c ^ 2 := by
  induction ys with
  | nil => simp
  | cons a l ih =>
    simp only [List.map_cons, List.sum_cons, ih, List.length_cons, Nat.cast_add, Nat.cast_one]
    ring

theorem sqDev_eq (ys : List K) (h : ys ≠ []) :
    sqDev ys = (ys.map fun v => v ^ 2).sum - ys.sum ^ 2 / (ys.length : K) := by
  have hn : (ys.length : K) ≠ 0 := by
    rw [Nat.cast_ne_zero]; exact fun h0 => h (List.eq_nil_of_length_eq_zero h0)
  unfold sqDev
  rw [sum_sq_dev, mean]
  field_simp
  ring

/-- The implemented update from sums and sums of squares is the textbook one (nonempty data). -/
theorem ngPosterior_eq (p : NG K) (ys : List K) (h : ys ≠ []) :
    BT.ngPosterior p ys.length ys.sum (ys.map fun v => v ^ 2).sum 1 = Spec.ngPosterior p ys := by
  unfold BT.ngPosterior Spec.ngPosterior
  rw [sqDev_eq ys h]
  simp only [mean, mul_one, NG.mk.injEq, true_and]
  refine ⟨by ring, by ring, ?_⟩
  congr 1
  · ring
  · rw [mul_div_assoc, mul_div_assoc, mul_comm (2 : K), ← div_div]
    ring

theorem ngMarginal_eq (F : Fns K) (p : NG K) (ys : List K) (h : ys ≠ []) :
    (let q := BT.ngPosterior p ys.length ys.sum (ys.map fun v => v ^ 2).sum 1
     ngLogPData F p q.alpha q.beta q.kappa ys.length) = ngMarginal F p ys := by
  simp only [ngPosterior_eq p ys h]
  unfold ngLogPData ngMarginal
  ring

omit [IsStrictOrderedRing K] [LinearOrder K] [Field K] in
theorem increasing_ge (l : List Nat) (m : Nat) (hp : l.Pairwise (· < ·)) (hb : ∀ k ∈ l, m ≤ k) (j : Nat)
    (hj : j < l.length) : m + j ≤ l[j] := by
  induction l generalizing m j with
  | nil => simp at hj
  | cons a l ih =>
    have ha := hb a (by simp)
    cases j with
    | zero => simpa using ha
    | succ j =>
      have := ih (m + 1) (List.pairwise_cons.1 hp).2
        (fun k hk => by have := (List.pairwise_cons.1 hp).1 k hk; omega) j (by simpa using hj)
      simp only [List.getElem_cons_succ]
      omega

omit [IsStrictOrderedRing K] [LinearOrder K] [Field K] in
theorem increasing_le (l : List Nat) (m : Nat) (hp : l.Pairwise (· < ·)) (hb : ∀ k ∈ l, k < m) (j : Nat)
    (hj : j < l.length) : l[j] + (l.length - j) ≤ m := by
  induction l generalizing j with
  | nil => simp at hj
  | cons a l ih =>
    cases j with
    | zero =>
      cases l with
      | nil => have := hb a (by simp); simp; omega
      | cons b l =>
        have h1 := ih (List.pairwise_cons.1 hp).2 (fun k hk => hb k (by simp [hk])) 0 (by simp)
        have h2 := (List.pairwise_cons.1 hp).1 b (by simp)
        simp at h1 ⊢
        omega
    | succ j =>
      have := ih (List.pairwise_cons.1 hp).2 (fun k hk => hb k (by simp [hk])) j (by simpa using hj)
      simp only [List.getElem_cons_succ, List.length_cons] at *
      omega

omit [IsStrictOrderedRing K] [LinearOrder K] [Field K] in
/-- The shortcut that skips the indexing reads the same entry. -/
theorem gather_shortcut {α : Type} (d : α) (A : List α) (n : Nat) (si : List Nat)
    (hsi : ∀ k ∈ si, 1 ≤ k ∧ k < n) (hp : si.Pairwise (· < ·)) (j : Nat) (hj : j < si.length) :
    (if (si.length == n - 1) = true then A else gatherD d A (si.map (· - 1))).getD j d =
      A.getD (si[j] - 1) d := by
  by_cases h : si.length = n - 1
  · rw [if_pos (by simp [h])]
    have h1 := increasing_ge si 1 hp (fun k hk => (hsi k hk).1) j hj
    have h2 := increasing_le si n hp (fun k hk => (hsi k hk).2) j hj
    have : si[j] - 1 = j := by omega
    rw [this]
  · rw [if_neg (by simp [h])]
    unfold gatherD
    simp [hj]

/-- The vectorised split scores of regression are the pair scores. -/
theorem regLogSplit_eq (F : Fns K) (pp : K) (lv : Nat) (y : List K) (prior : NG K) (nd : Nat)
    (si : List Nat) (hsi : ∀ k ∈ si, 1 ≤ k ∧ k < y.length) (hp : si.Pairwise (· < ·)) :
    regLogSplit F pp lv y prior nd si =
      si.map fun k => regPair F pp lv prior nd si.length (y.take k) (y.drop k) := by
  unfold regLogSplit
  simp only
  apply List.ext_getElem
  · simp
  · intro j h1 h2
    have hj : j < si.length := by simpa using h2
    have hk := hsi si[j] (List.getElem_mem hj)
    simp only [List.getElem_map, List.getElem_range, gather_shortcut _ _ _ si hsi hp j hj]
    set k := si[j] with hkdef
    have n1 : (List.map (1 + ·) (List.range (y.length - 1))).getD (k - 1) 0 = (y.take k).length := by
      rw [List.getD_eq_getElem?_getD, List.getElem?_map, List.getElem?_range (by omega)]
      simp; omega
    have n2 : (List.map (y.length - ·) (List.map (1 + ·) (List.range (y.length - 1)))).getD (k - 1) 0 =
        (y.drop k).length := by
      rw [List.getD_eq_getElem?_getD, List.getElem?_map, List.getElem?_map,
        List.getElem?_range (by omega)]
      simp; omega
    have s1 : (cumsum y).dropLast[k - 1]? = some (y.take k).sum := by
      rw [List.getElem?_dropLast, if_pos (by rw [cumsum_length]; omega), cumsum_get _ _ (by omega),
        Nat.sub_add_cancel hk.1]
    have q1 : (cumsum (y.dropLast.map fun v => v ^ 2))[k - 1]? = some ((y.take k).map fun v => v ^ 2).sum := by
      rw [cumsum_get _ _ (by simp; omega), Nat.sub_add_cancel hk.1, ← List.map_take,
        List.dropLast_eq_take, List.take_take, min_eq_left (by omega)]
    have ssum : y.sum - (y.take k).sum = (y.drop k).sum := by
      conv_lhs => rw [← List.take_append_drop k y]
      rw [List.sum_append, List.take_append_drop]; ring
    have qsum : (y.map fun v => v ^ 2).sum - ((y.take k).map fun v => v ^ 2).sum =
        ((y.drop k).map fun v => v ^ 2).sum := by
      conv_lhs => rw [← List.take_append_drop k y]
      rw [List.map_append, List.sum_append, List.take_append_drop]; ring
    rw [n1, n2]
    simp only [List.getD_eq_getElem?_getD, List.getElem?_map, s1, q1, Option.map_some,
      Option.getD_some, ssum, qsum]
    have ne1 : y.take k ≠ [] := by
      intro h; have := congrArg List.length h; rw [List.length_take, List.length_nil] at this; omega
    have ne2 : y.drop k ≠ [] := by
      intro h; have := congrArg List.length h; rw [List.length_drop, List.length_nil] at this; omega
    have m1 := ngMarginal_eq F prior (y.take k) ne1
    have m2 := ngMarginal_eq F prior (y.drop k) ne2
    simp only at m1 m2
    rw [m1, m2]
    unfold regPair logSplitPrior
    rw [Nat.add_comm 1 lv]

omit [IsStrictOrderedRing K] [LinearOrder K] in
theorem mean_perm {a b : List K} (h : a.Perm b) : mean a = mean b := by
  unfold mean; rw [h.sum_eq, h.length_eq]

omit [IsStrictOrderedRing K] [LinearOrder K] in
theorem spec_ngPosterior_perm (p : NG K) {a b : List K} (h : a.Perm b) :
    Spec.ngPosterior p a = Spec.ngPosterior p b := by
  unfold Spec.ngPosterior sqDev
  rw [mean_perm h, h.length_eq, (h.map _).sum_eq]

/-- The regression target model satisfies what the fit needs. -/
theorem reg_lawful (F : Fns K) : LawfulTarget (regTarget F) (regPair F) where
  getPrior_some _ _ _ := rfl
  posterior_perm y y' prior delta h := by
    show regPosterior y prior delta = regPosterior y' prior delta
    unfold regPosterior
    rw [h.length_eq, h.sum_eq, (h.map _).sum_eq]
  noSplit_perm pp lv y y' prior h := by
    show regLogNoSplit F pp lv y prior = regLogNoSplit F pp lv y' prior
    unfold regLogNoSplit
    rw [h.length_eq, h.sum_eq, (h.map _).sum_eq]
  pair_perm pp lv prior nd ns a a' b b' ha hb := by
    unfold regPair ngMarginal
    rw [spec_ngPosterior_perm prior ha, spec_ngPosterior_perm prior hb, ha.length_eq, hb.length_eq]
  logSplit_eq pp lv y prior nd si hsi hp := regLogSplit_eq F pp lv y prior nd si hsi hp

theorem regLogNoSplit_eq (F : Fns K) (pp : K) (lv : Nat) (y : List K) (prior : NG K) (h : y ≠ []) :
    regLogNoSplit F pp lv y prior = logStayPrior F pp lv + ngMarginal F prior y := by
  unfold regLogNoSplit logStayPrior
  have := ngMarginal_eq F prior y h
  simp only at this ⊢
  rw [this, Nat.add_comm 1 lv]

theorem regPosterior_one (y : List K) (prior : NG K) (h : y ≠ []) :
    regPosterior y prior 1 = Spec.ngPosterior prior y := by
  unfold regPosterior
  rw [if_neg one_ne_zero, ngPosterior_eq prior y h]

end reg

end BT
