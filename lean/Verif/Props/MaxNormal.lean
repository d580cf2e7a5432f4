import Verif.Lemmas.MaxNormal
import Verif.Props.SameFreq
import Verif.Props.Regression

/-!
# Regression scores and maximum likelihood: C98; trees fitted to data repeated many times: C99
-/

namespace BT
open Spec

/-- C98: among all normal distributions the one with mean and variance of the sample has the largest
likelihood, and it is the only one. -/
theorem C98_maximum {ys : List ℝ} (h : 0 < sqDev ys) :
    (0 < sampleVariance ys ∧ normalLogLik ys (mean ys) (sampleVariance ys) = maxNormal ys) ∧
    ∀ m v, 0 < v → normalLogLik ys m v ≤ maxNormal ys ∧
      (normalLogLik ys m v = maxNormal ys → m = mean ys ∧ v = sampleVariance ys) :=
  ⟨⟨sampleVariance_pos h, rfl⟩, fun m _ hv => normalLogLik_le h m hv⟩

/-- C98: the score of not splitting lies between the log-likelihood under the sample mean and any variance,
minus a logarithmic penalty, and the largest log-likelihood. -/
theorem C98_stay {p : NG ℝ} (h : ProperNG p) {ys : List ℝ} (hne : ys ≠ []) (pp : ℝ) (lv : Nat) :
    (∀ v, 0 < v → Real.log (1 - pp ^ (lv + 1)) + normalLogLik ys (mean ys) v - ngSlack p ys v ≤
      (regTarget realFns).logNoSplit pp lv ys p) ∧
    (0 < sqDev ys → (regTarget realFns).logNoSplit pp lv ys p ≤ Real.log (1 - pp ^ (lv + 1)) + maxNormal ys) := by
  rw [(CodeTarget.regression (F := realFns)).textbook.stay pp lv ys p hne]
  have e : realFns.log (1 - pp ^ (lv + 1)) = Real.log (1 - pp ^ (lv + 1)) := rfl
  rw [e]
  refine ⟨fun v hv => ?_, fun hQ => ?_⟩
  · have := ngMarginal_ge h ys hv
    linarith
  · have := ngMarginal_le h hQ
    linarith

/-- C98: the same for the score of a split behind the first `k` targets. -/
theorem C98_split {p : NG ℝ} (h : ProperNG p) {ys : List ℝ} (pp : ℝ) (lv nd : Nat) (si : List Nat)
    (hsi : si.Pairwise (· < ·)) (hlt : ∀ k ∈ si, 1 ≤ k ∧ k < ys.length) (i k : Nat) (hk : si[i]? = some k) :
    ∃ s, ((regTarget realFns).logSplit pp lv ys p nd si)[i]? = some s ∧
      (∀ v w, 0 < v → 0 < w → Real.log (pp ^ (lv + 1) / ((si.length : ℝ) * (nd : ℝ))) +
        normalLogLik (ys.take k) (mean (ys.take k)) v + normalLogLik (ys.drop k) (mean (ys.drop k)) w -
        ngSlack p (ys.take k) v - ngSlack p (ys.drop k) w ≤ s) ∧
      (0 < sqDev (ys.take k) → 0 < sqDev (ys.drop k) →
        s ≤ Real.log (pp ^ (lv + 1) / ((si.length : ℝ) * (nd : ℝ))) + maxNormal (ys.take k) + maxNormal (ys.drop k)) := by
  rw [(CodeTarget.regression (F := realFns)).textbook.lawful.logSplit_eq pp lv ys p nd si hlt hsi]
  refine ⟨_, by rw [List.getElem?_map, hk]; rfl, ?_⟩
  have e : ∀ x, realFns.log x = Real.log x := fun _ => rfl
  simp only [e]
  refine ⟨fun v w hv hw => ?_, fun hA hB => ?_⟩
  · have h1 := ngMarginal_ge h (ys.take k) hv
    have h2 := ngMarginal_ge h (ys.drop k) hw
    linarith
  · have h1 := ngMarginal_le h hA
    have h2 := ngMarginal_le h hB
    linarith

/-- The targets 0 and 1: variance 1/4. -/
example : 0 < sqDev [(0 : ℝ), 1] ∧ sampleVariance [0, 1] = 1 / 4 ∧ ProperNG ⟨0, 1, 1, 1⟩ := by
  refine ⟨?_, ?_, one_pos, one_pos, one_pos⟩
  · simp [sqDev, mean]; norm_num
  · simp [sampleVariance, sqDev, mean]; norm_num

/-! ### Two groups -/

theorem normalLogLik_append (A B : List ℝ) (m v : ℝ) :
    normalLogLik (A ++ B) m v = normalLogLik A m v + normalLogLik B m v := by
  unfold normalLogLik
  rw [List.map_append, List.sum_append, List.length_append]
  push_cast
  ring

theorem sqDev_perm {A B : List ℝ} (h : A.Perm B) : sqDev A = sqDev B := by
  unfold sqDev
  rw [mean_perm h, (h.map _).sum_eq]

theorem maxNormal_perm {A B : List ℝ} (h : A.Perm B) : maxNormal A = maxNormal B := by
  unfold maxNormal normalLogLik sampleVariance
  rw [mean_perm h, sqDev_perm h, h.length_eq, (h.map _).sum_eq]

/-- A group is at least as likely under its own mean and a suitable variance as under any other normal
distribution. -/
theorem side_gain {A : List ℝ} (hA : A ≠ []) (m : ℝ) {v : ℝ} (hv : 0 < v) :
    ∃ w > 0, normalLogLik A m v ≤ normalLogLik A (mean A) w ∧
      (¬ (mean A = m ∧ sampleVariance A = v) → normalLogLik A m v < normalLogLik A (mean A) w) := by
  have hn : (0 : ℝ) < (A.length : ℝ) := by exact_mod_cast List.length_pos_iff.2 hA
  rcases (sqDev_nonneg A).lt_or_eq with hQ | hQ
  · obtain ⟨h1, h2⟩ := normalLogLik_le hQ m hv
    exact ⟨sampleVariance A, sampleVariance_pos hQ, h1, fun hne => lt_of_le_of_ne h1 fun he =>
      hne ⟨(h2 he).1.symm, (h2 he).2.symm⟩⟩
  · have hlt : normalLogLik A m v < normalLogLik A (mean A) (v / 2) := by
      rw [normalLogLik_eq A m hv, normalLogLik_eq A _ (half_pos hv), ← hQ, Real.log_div hv.ne' two_ne_zero]
      have h0 : 0 ≤ (0 + (A.length : ℝ) * (mean A - m) ^ 2) / (2 * v) := by positivity
      have h2 : 0 < Real.log 2 := Real.log_pos (by norm_num)
      have h3 : (0 + (A.length : ℝ) * (mean A - mean A) ^ 2) / (2 * (v / 2)) = 0 := by simp
      rw [h3]
      nlinarith
    exact ⟨v / 2, half_pos hv, hlt.le, fun _ => hlt⟩

/-- Describing two groups separately gains likelihood unless they have the same mean and variance. -/
theorem side_gains {A B : List ℝ} (hA : A ≠ []) (hB : B ≠ []) (hQ : 0 < sqDev (A ++ B))
    (hne : ¬ (mean A = mean B ∧ sampleVariance A = sampleVariance B)) :
    ∃ v > 0, ∃ w > 0, maxNormal (A ++ B) < normalLogLik A (mean A) v + normalLogLik B (mean B) w := by
  have hv := sampleVariance_pos hQ
  obtain ⟨v, hv0, a1, a2⟩ := side_gain hA (mean (A ++ B)) hv
  obtain ⟨w, hw0, b1, b2⟩ := side_gain hB (mean (A ++ B)) hv
  refine ⟨v, hv0, w, hw0, ?_⟩
  have e : maxNormal (A ++ B) = normalLogLik A (mean (A ++ B)) (sampleVariance (A ++ B)) +
      normalLogLik B (mean (A ++ B)) (sampleVariance (A ++ B)) := normalLogLik_append _ _ _ _
  rw [e]
  by_cases h1 : mean A = mean (A ++ B) ∧ sampleVariance A = sampleVariance (A ++ B)
  · have h2 : ¬ (mean B = mean (A ++ B) ∧ sampleVariance B = sampleVariance (A ++ B)) := fun h2 =>
      hne ⟨h1.1.trans h2.1.symm, h1.2.trans h2.2.symm⟩
    linarith [b2 h2]
  · linarith [a2 h1]

theorem sqDev_pos_iff {ys : List ℝ} : 0 < sqDev ys ↔ ∃ a ∈ ys, ∃ b ∈ ys, a ≠ b := by
  constructor
  · intro h
    by_contra hno
    push Not at hno
    cases ys with
    | nil => simp [sqDev] at h
    | cons a l =>
      have hrep : a :: l = List.replicate (l.length + 1) a := List.eq_replicate_iff.2 ⟨by simp, fun b hb =>
        (hno b hb a (by simp))⟩
      have hm : mean (a :: l) = a := by
        rw [hrep]
        unfold mean
        rw [List.sum_replicate, List.length_replicate, nsmul_eq_mul]
        have : ((l.length + 1 : ℕ) : ℝ) ≠ 0 := by exact_mod_cast Nat.succ_ne_zero l.length
        field_simp
      have : sqDev (a :: l) = 0 := by
        unfold sqDev
        rw [hm]
        refine List.sum_eq_zero fun x hx => ?_
        obtain ⟨b, hb, rfl⟩ := List.mem_map.1 hx
        rw [hno b hb a (by simp)]
        ring
      linarith
  · rintro ⟨a, ha, b, hb, hab⟩
    refine lt_of_le_of_ne (sqDev_nonneg ys) fun h0 => hab ?_
    have hz : ∀ c ∈ ys, c = mean ys := by
      intro c hc
      have hnn : ∀ x ∈ ys.map (fun v => (v - mean ys) ^ 2), 0 ≤ x := fun x hx => by
        obtain ⟨v, -, rfl⟩ := List.mem_map.1 hx
        exact sq_nonneg _
      have hle : (c - mean ys) ^ 2 ≤ sqDev ys := le_sum_of_mem hnn (List.mem_map_of_mem (f := fun v => (v - mean ys) ^ 2) hc)
      rw [← h0] at hle
      have := pow_eq_zero_iff (two_ne_zero) |>.1 (le_antisymm hle (sq_nonneg _))
      linarith
    rw [hz a ha, hz b hb]

/-! ### Copies -/

theorem sum_copies (k : Nat) (ys : List ℝ) : (copies k ys).sum = k * ys.sum := by
  induction k with
  | zero => simp [copies_zero]
  | succ k ih => rw [copies_succ, List.sum_append, ih]; push_cast; ring

theorem mean_copies {k : Nat} (hk : 0 < k) (ys : List ℝ) : mean (copies k ys) = mean ys := by
  unfold mean
  rw [sum_copies, length_copies]
  push_cast
  exact mul_div_mul_left _ _ (by exact_mod_cast hk.ne')

theorem normalLogLik_copies (k : Nat) (ys : List ℝ) (m v : ℝ) :
    normalLogLik (copies k ys) m v = k * normalLogLik ys m v := by
  unfold normalLogLik
  rw [map_copies, sum_copies, length_copies]
  push_cast
  ring

theorem sqDev_copies {k : Nat} (hk : 0 < k) (ys : List ℝ) : sqDev (copies k ys) = k * sqDev ys := by
  unfold sqDev
  rw [mean_copies hk, map_copies, sum_copies]

theorem sampleVariance_copies {k : Nat} (hk : 0 < k) (ys : List ℝ) :
    sampleVariance (copies k ys) = sampleVariance ys := by
  unfold sampleVariance
  rw [sqDev_copies hk, length_copies]
  push_cast
  exact mul_div_mul_left _ _ (by exact_mod_cast hk.ne')

theorem maxNormal_copies {k : Nat} (hk : 0 < k) (ys : List ℝ) : maxNormal (copies k ys) = k * maxNormal ys := by
  unfold maxNormal
  rw [mean_copies hk, sampleVariance_copies hk, normalLogLik_copies]

/-- A linear function outgrows square roots. -/
theorem sqrt_loses {g : ℝ} (hg : 0 < g) (C D : ℝ) :
    ∃ N : Nat, ∀ k : Nat, N ≤ k → C + D * Real.sqrt k < k * g := by
  set E : ℝ := |C| + |D| with hE
  have hE0 : 0 ≤ E := by positivity
  obtain ⟨N, hN⟩ := exists_nat_gt ((E / g) ^ 2)
  refine ⟨N + 1, fun k hk => ?_⟩
  have hk1 : (1 : ℝ) ≤ k := by exact_mod_cast (by omega : 1 ≤ k)
  have hkN : (E / g) ^ 2 < k := hN.trans (by exact_mod_cast hk)
  have hs1 : 1 ≤ Real.sqrt k := Real.one_le_sqrt.2 hk1
  have hsk : Real.sqrt k * Real.sqrt k = k := Real.mul_self_sqrt (by positivity)
  have hsE : E / g < Real.sqrt k := by
    rw [← Real.sqrt_sq (by positivity : 0 ≤ E / g)]
    exact Real.sqrt_lt_sqrt (by positivity) hkN
  have h2 : E < g * Real.sqrt k := by
    rw [div_lt_iff₀ hg] at hsE
    linarith
  calc C + D * Real.sqrt k ≤ |C| * Real.sqrt k + |D| * Real.sqrt k := by
        have h3 : C ≤ |C| * Real.sqrt k := by nlinarith [le_abs_self C, abs_nonneg C]
        have h4 : D * Real.sqrt k ≤ |D| * Real.sqrt k := by nlinarith [le_abs_self D]
        linarith
    _ = E * Real.sqrt k := by rw [hE]; ring
    _ < g * Real.sqrt k * Real.sqrt k := mul_lt_mul_of_pos_right h2 (by linarith)
    _ = k * g := by rw [mul_assoc, hsk]; ring

theorem log_growth {a b : ℝ} (ha : 0 < a) (hb : 0 ≤ b) (k : Nat) :
    Real.log (a + k * b) ≤ Real.log a + 2 * Real.sqrt (b / a) * Real.sqrt k := by
  have e : a + k * b = a * (1 + k * (b / a)) := by field_simp
  have h0 : 0 ≤ (k : ℝ) * (b / a) := by positivity
  rw [e, Real.log_mul ha.ne' (by positivity)]
  have := log_one_add_le h0
  rw [mul_comm (k : ℝ), Real.sqrt_mul (by positivity)] at this
  rw [mul_comm (k : ℝ)]
  linarith

/-- The penalty of copies grows more slowly than their number. -/
theorem ngSlack_copies {p : NG ℝ} (hp : ProperNG p) (ys : List ℝ) (v : ℝ) :
    ∃ C D : ℝ, ∀ k : Nat, 0 < k → ngSlack p (copies k ys) v ≤ C + D * Real.sqrt k := by
  obtain ⟨h1, h2, h3⟩ := hp
  refine ⟨Real.log p.alpha + Real.log 1 / 2 + (p.beta + p.kappa * (mean ys - p.mu) ^ 2 / 2) / v + p.alpha * Real.log v +
    (Real.log (Real.Gamma p.alpha) - p.alpha * Real.log p.beta),
    2 * Real.sqrt ((ys.length : ℝ) / 2 / p.alpha) + 2 * Real.sqrt ((ys.length : ℝ) / p.kappa / 1) / 2, fun k hk => ?_⟩
  unfold ngSlack
  rw [mean_copies hk, length_copies]
  have g1 := log_growth h2 (b := (ys.length : ℝ) / 2) (by positivity) k
  have g2 := log_growth one_pos (b := (ys.length : ℝ) / p.kappa) (by positivity) k
  have e1 : ((k * ys.length : ℕ) : ℝ) / 2 = k * ((ys.length : ℝ) / 2) := by push_cast; ring
  have e2 : ((k * ys.length : ℕ) : ℝ) / p.kappa = k * ((ys.length : ℝ) / p.kappa) := by push_cast; ring
  rw [e1, e2]
  linarith

section
variable {hp : Hyper ℝ} {argsort : List ℝ → List Nat} {X : Nat → Nat → ℝ} {y : Nat → ℝ} {k n nDim : Nat}
  {names : List String} {prior : NG ℝ} {t : PNode ℝ ℝ ℝ (NG ℝ)}

theorem reg_node_prior (hr : Training hp argsort n nDim) (hδ : 0 ≤ hp.delta) (hprior : ProperNG prior)
    (h : perpFitRoot (exactOps ℝ) (regTarget realFns) argsort hp (some prior) X y n nDim names = .ok t)
    {addr : List Bool} {u : PNode ℝ ℝ ℝ (NG ℝ)} (hu : nodeAt t addr = some u) :
    ∃ p, u.info.prior = some p ∧ ProperNG p ∧ (hp.delta = 0 → p = prior) := by
  have hT : CodeTarget realFns (regTarget realFns) (ngMarginal realFns) Spec.ngPosterior := .regression
  obtain ⟨p, hp1⟩ := prior_some hT hr h hu
  refine ⟨p, hp1, ?_, fun h0 => ?_⟩
  · have := (C20_proper (c := exactCtx (regTarget realFns) (mlPair realFns (ngMarginal realFns)) hp X y nDim names)
      rfl (hr.valid hT) hr.someRow h hδ (fun p hp => by cases hp; exact hprior) addr u hu).1
    rw [hp1] at this
    exact this
  · have := same_prior hT hr h0 h hu
    exact Option.some.inj (hp1.symm.trans this)

/-- C99: for every cut of the rows of a leaf of an unpruned regression tree that the code may choose, the gain
in log-likelihood from describing both sides by their own means and any variances is at most the log prior
odds against the cut plus logarithmic penalties. -/
theorem C99_leaf (hr : Training hp argsort n nDim) (hpr : hp.prune = false) (hδ : 0 ≤ hp.delta)
    (hprior : ProperNG prior)
    (h : perpFitRoot (exactOps ℝ) (regTarget realFns) argsort hp (some prior) X y n nDim names = .ok t)
    (addr : List Bool) (i : Info ℝ (NG ℝ)) (hu : nodeAt t addr = some (.leaf i)) :
    let R := rowsAt X t n addr
    let q := hp.partitionPrior ^ (addr.length + 1)
    ∃ p, i.prior = some p ∧ (hp.delta = 0 → p = prior) ∧
      ((∀ j ∈ R, ∀ k ∈ R, y j = y k) ∨
        ∀ d < nDim, ∀ a c, IsCut hp.splitPrecision X R d a c → ∀ v w, 0 < v → 0 < w →
          let A := (R.filter fun i => X i d ≤ a).map y
          let B := (R.filter fun i => a < X i d).map y
          normalLogLik A (mean A) v + normalLogLik B (mean B) w - maxNormal (R.map y) ≤
            Real.log (1 - q) - Real.log (q / ((cutCount hp.splitPrecision X R d : ℝ) * (nDim : ℝ))) +
              ngSlack p A v + ngSlack p B w) := by
  intro R q
  have hT : CodeTarget realFns (regTarget realFns) (ngMarginal realFns) Spec.ngPosterior := .regression
  obtain ⟨p, hp1, hp2, hp4⟩ := reg_node_prior hr hδ hprior h hu
  refine ⟨p, hp1, hp4, ?_⟩
  by_cases hall : ∀ j ∈ R, ∀ k ∈ R, y j = y k
  · exact .inl hall
  right
  intro d hd a c hac v w hv hw A B
  have hQ : 0 < sqDev (R.map y) := by
    push Not at hall
    obtain ⟨j, hj, k, hk, hne⟩ := hall
    exact sqDev_pos_iff.2 ⟨y j, List.mem_map_of_mem hj, y k, List.mem_map_of_mem hk, hne⟩
  rcases C14_closed hT hr hpr h addr i hu with g | g | ⟨p', hp', g⟩
  · exfalso
    obtain ⟨⟨i1, hi1, e1⟩, ⟨j1, hj1, f1⟩, hlt, -, -⟩ := hac
    obtain ⟨r, hr1⟩ := List.length_eq_one_iff.1 g
    have hi1 : i1 ∈ rowsAt X t n addr := hi1
    have hj1 : j1 ∈ rowsAt X t n addr := hj1
    rw [hr1, List.mem_singleton] at hi1 hj1
    subst hi1; subst hj1
    linarith
  · exact absurd g hall
  · have hpe : p' = p := Option.some.inj (hp'.symm.trans hp1)
    subst hpe
    have hg := g d hd a c hac
    unfold perpCutScore stayScore at hg
    have h1 := ngMarginal_ge hp2 A hv
    have h2 := ngMarginal_ge hp2 B hw
    have h3 := ngMarginal_le hp2 hQ
    have e : ∀ x, realFns.log x = Real.log x := fun _ => rfl
    simp only [e] at hg
    have hg' : Real.log (q / ((cutCount hp.splitPrecision X R d : ℝ) * (nDim : ℝ))) +
        ngMarginal realFns p' A + ngMarginal realFns p' B ≤
        Real.log (1 - q) + ngMarginal realFns p' (R.map y) := hg
    linarith

/-- C99: a split into sides that both have different targets is only made if the gain in maximal
log-likelihood makes up for the log prior odds against it, up to a logarithmic amount. -/
theorem C99_split (hr : Training hp argsort n nDim) (hδ : 0 ≤ hp.delta) (hprior : ProperNG prior)
    (h : perpFitRoot (exactOps ℝ) (regTarget realFns) argsort hp (some prior) X y n nDim names = .ok t)
    (addr : List Bool) (i : Info ℝ (NG ℝ)) (sp : PSplit ℝ) (l b : ℝ) (c1 c2 : PNode ℝ ℝ ℝ (NG ℝ))
    (hu : nodeAt t addr = some (.split i sp l b c1 c2)) :
    let R := rowsAt X t n addr
    let A := (rowsAt X t n (addr ++ [false])).map y
    let B := (rowsAt X t n (addr ++ [true])).map y
    let q := hp.partitionPrior ^ (addr.length + 1)
    ∃ p, i.prior = some p ∧ (hp.delta = 0 → p = prior) ∧
      (0 < sqDev A → 0 < sqDev B → ∀ v, 0 < v →
        Real.log (1 - q) - Real.log (q / ((cutCount hp.splitPrecision X R sp.dim : ℝ) * (nDim : ℝ))) -
          ngSlack p (R.map y) v < maxNormal A + maxNormal B - normalLogLik (R.map y) (mean (R.map y)) v) := by
  intro R A B q
  have hT : CodeTarget realFns (regTarget realFns) (ngMarginal realFns) Spec.ngPosterior := .regression
  obtain ⟨p, hp1, hp2, hp4⟩ := reg_node_prior hr hδ hprior h hu
  refine ⟨p, hp1, hp4, fun hA hB v hv => ?_⟩
  obtain ⟨p', hp', g1, g2, -, ⟨a, c, hac, hval, hb⟩, -⟩ := C13_closed hT hr h addr i sp l b c1 c2 hu
  have hpe : p' = p := Option.some.inj (hp'.symm.trans hp1)
  subst hpe
  obtain ⟨r1, r2⟩ := C13_closed_children hT hr h addr i sp l b c1 c2 hu
  obtain ⟨s1, s2⟩ := split_sides hac hval
  have eA : A = ((R.filter fun i => X i sp.dim ≤ a).map y) := by
    show (rowsAt X t n (addr ++ [false])).map y = _
    rw [r1, s1]
  have eB : B = ((R.filter fun i => a < X i sp.dim).map y) := by
    show (rowsAt X t n (addr ++ [true])).map y = _
    rw [r2, s2]
  rw [hb, g1] at g2
  unfold perpCutScore stayScore at g2
  have h1 := ngMarginal_le hp2 hA
  have h2 := ngMarginal_le hp2 hB
  have h3 := ngMarginal_ge hp2 (R.map y) hv
  have e : ∀ x, realFns.log x = Real.log x := fun _ => rfl
  simp only [e] at g2
  have g2' : Real.log (1 - q) + ngMarginal realFns p' (R.map y) <
      Real.log (q / ((cutCount hp.splitPrecision X R sp.dim : ℝ) * (nDim : ℝ))) +
        ngMarginal realFns p' ((R.filter fun i => X i sp.dim ≤ a).map y) +
        ngMarginal realFns p' ((R.filter fun i => a < X i sp.dim).map y) := g2
  rw [← eA, ← eB] at g2'
  linarith

/-- C99: the bound for leaves of trees fitted to copies of a data set, for every number of copies. -/
theorem C99_copies (hk : 0 < k) (hr : Training hp argsort (k * n) nDim) (hpr : hp.prune = false)
    (hδ : hp.delta = 0) (hprior : ProperNG prior)
    (h : perpFitRoot (exactOps ℝ) (regTarget realFns) argsort hp (some prior) (repeated n X) (repeated n y) (k * n)
      nDim names = .ok t)
    (addr : List Bool) (i : Info ℝ (NG ℝ)) (hu : nodeAt t addr = some (.leaf i)) :
    let R := rowsAt X t n addr
    let q := hp.partitionPrior ^ (addr.length + 1)
    (∀ j ∈ R, ∀ k ∈ R, y j = y k) ∨
    ∀ d < nDim, ∀ a c, IsCut hp.splitPrecision X R d a c → ∀ v w, 0 < v → 0 < w →
      let A := (R.filter fun i => X i d ≤ a).map y
      let B := (R.filter fun i => a < X i d).map y
      k * (normalLogLik A (mean A) v + normalLogLik B (mean B) w - maxNormal (R.map y)) ≤
        Real.log (1 - q) - Real.log (q / ((cutCount hp.splitPrecision X R d : ℝ) * (nDim : ℝ))) +
          ngSlack prior (copies k A) v + ngSlack prior (copies k B) w := by
  intro R q
  have hR' : (rowsAt (repeated n X) t (k * n) addr).map (· % n) = copies k R := rowsAt_repeated X t k n addr
  obtain ⟨p, -, hpp, g⟩ := C99_leaf hr hpr hδ.ge hprior h addr i hu
  have hpe := hpp hδ
  subst hpe
  rcases g with g | g
  · left
    intro j hj l hl
    exact (forall_repeated hk hR' fun j => ∀ l ∈ R, y j = y l).1 (fun j' hj' =>
      (forall_repeated hk hR' fun l => y (j' % n) = y l).1 fun l' hl' => g j' hj' l' hl') j hj l hl
  · right
    intro d hd a c hac v w hv hw A B
    have g' := g d hd a c ((isCut_repeated hk hR' _ X d a c).2 hac) v w hv hw
    have eA : ((rowsAt (repeated n X) t (k * n) addr).filter fun i => repeated n X i d ≤ a).map (repeated n y) =
        copies k A :=
      map_repeated (filter_map_repeated hR' fun i => decide (X i d ≤ a)) y
    have eB : ((rowsAt (repeated n X) t (k * n) addr).filter fun i => a < repeated n X i d).map (repeated n y) =
        copies k B :=
      map_repeated (filter_map_repeated hR' fun i => decide (a < X i d)) y
    simp only [eA, eB, cutCount_repeated hk hR', map_repeated hR' y] at g'
    rw [maxNormal_copies hk, mean_copies hk, mean_copies hk, normalLogLik_copies, normalLogLik_copies] at g'
    have e : (k : ℝ) * (normalLogLik A (mean A) v + normalLogLik B (mean B) w - maxNormal (R.map y)) =
        k * normalLogLik A (mean A) v + k * normalLogLik B (mean B) w - k * maxNormal (R.map y) := by ring
    rw [e]
    exact g'

theorem uniform_bound {α : Type} (L : List α) (P : α → Nat → Prop) (h : ∀ x ∈ L, ∃ N, ∀ k, N ≤ k → P x k) :
    ∃ N, ∀ x ∈ L, ∀ k, N ≤ k → P x k := by
  induction L with
  | nil => exact ⟨0, by simp⟩
  | cons a L ih =>
    obtain ⟨N, hN⟩ := ih fun x hx => h x (by simp [hx])
    obtain ⟨M, hM⟩ := h a (by simp)
    refine ⟨max N M, fun x hx k hk => ?_⟩
    rcases List.mem_cons.1 hx with rfl | hx
    · exact hM k ((le_max_right _ _).trans hk)
    · exact hN x hx k ((le_max_left _ _).trans hk)

theorem odds_bound {q pp : ℝ} {lv cc n nDim : Nat} (hq : q = pp ^ (lv + 1)) (hpp : 0 < pp) (hpp1 : pp < 1)
    (hcc : 0 < cc) (hnd : 0 < nDim) (hcn : cc ≤ n) (hlv : lv + 1 ≤ n) :
    Real.log (1 - q) - Real.log (q / ((cc : ℝ) * (nDim : ℝ))) ≤ Real.log (n * nDim) - n * Real.log pp := by
  have hq0 : 0 < q := hq ▸ pow_pos hpp _
  have hq1 : q < 1 := hq ▸ pow_lt_one₀ hpp.le hpp1 (by omega)
  have hlog1 : Real.log (1 - q) ≤ 0 := Real.log_nonpos (by linarith) (by linarith)
  have hcc0 : (0 : ℝ) < cc := by exact_mod_cast hcc
  have hnd : (0 : ℝ) < nDim := by exact_mod_cast hnd
  rw [Real.log_div hq0.ne' (mul_pos hcc0 hnd).ne', hq, Real.log_pow, ← hq]
  have l1 : Real.log ((cc : ℝ) * (nDim : ℝ)) ≤ Real.log (n * nDim) := by
    apply Real.log_le_log (mul_pos hcc0 hnd)
    apply mul_le_mul_of_nonneg_right _ hnd.le
    exact_mod_cast hcn
  have l2 : Real.log pp ≤ 0 := Real.log_nonpos hpp.le hpp1.le
  have l3 : ((lv + 1 : ℕ) : ℝ) ≤ n := by exact_mod_cast hlv
  nlinarith

/-- C99: fitted to sufficiently many copies of a data set, an unpruned regression tree leaves nothing to be
learnt by one further split: every cut of the rows in a leaf has the same mean and variance on both sides. -/
theorem C99_learns (X : Nat → Nat → ℝ) (y : Nat → ℝ) (n nDim : Nat) (hpr : hp.prune = false) (hδ : hp.delta = 0)
    (hpp : 0 < hp.partitionPrior) (hpp1 : hp.partitionPrior < 1) (hprior : ProperNG prior) :
    ∃ N : Nat, ∀ (k : Nat) (argsort : List ℝ → List Nat) (names : List String) (t : PNode ℝ ℝ ℝ (NG ℝ)), N ≤ k →
      Training hp argsort (k * n) nDim →
      perpFitRoot (exactOps ℝ) (regTarget realFns) argsort hp (some prior) (repeated n X) (repeated n y) (k * n)
        nDim names = .ok t →
      ∀ (addr : List Bool) (i : Info ℝ (NG ℝ)), nodeAt t addr = some (.leaf i) →
        ∀ d < nDim, ∀ a c, IsCut hp.splitPrecision X (rowsAt X t n addr) d a c →
          let A := ((rowsAt X t n addr).filter fun i => X i d ≤ a).map y
          let B := ((rowsAt X t n addr).filter fun i => a < X i d).map y
          mean A = mean B ∧ sampleVariance A = sampleVariance B := by
  classical
  set side1 : List Nat × Nat × Nat → List ℝ := fun x => (x.1.filter fun i => X i x.2.1 ≤ X x.2.2 x.2.1).map y
    with hs1
  set side2 : List Nat × Nat × Nat → List ℝ := fun x => (x.1.filter fun i => X x.2.2 x.2.1 < X i x.2.1).map y
    with hs2
  set L : List (List Nat × Nat × Nat) := (List.range n).sublists.flatMap fun R => (List.range nDim).flatMap fun d =>
    (List.range n).map fun r => (R, d, r) with hL
  set C := Real.log (n * nDim) - n * Real.log hp.partitionPrior with hC
  obtain ⟨N, hN⟩ := uniform_bound L (fun x k => side1 x ≠ [] → side2 x ≠ [] → 0 < sqDev (side1 x ++ side2 x) →
      ¬ (mean (side1 x) = mean (side2 x) ∧ sampleVariance (side1 x) = sampleVariance (side2 x)) → 0 < k →
      ∃ v > 0, ∃ w > 0, C + ngSlack prior (copies k (side1 x)) v + ngSlack prior (copies k (side2 x)) w <
        k * (normalLogLik (side1 x) (mean (side1 x)) v + normalLogLik (side2 x) (mean (side2 x)) w -
          maxNormal (side1 x ++ side2 x))) (by
    intro x _
    by_cases hc : side1 x ≠ [] ∧ side2 x ≠ [] ∧ 0 < sqDev (side1 x ++ side2 x) ∧
      ¬ (mean (side1 x) = mean (side2 x) ∧ sampleVariance (side1 x) = sampleVariance (side2 x))
    · obtain ⟨v, hv, w, hw, hg⟩ := side_gains hc.1 hc.2.1 hc.2.2.1 hc.2.2.2
      obtain ⟨C1, D1, b1⟩ := ngSlack_copies hprior (side1 x) v
      obtain ⟨C2, D2, b2⟩ := ngSlack_copies hprior (side2 x) w
      obtain ⟨M, hM⟩ := sqrt_loses (sub_pos.2 hg) (C + C1 + C2) (D1 + D2)
      refine ⟨M, fun k hk _ _ _ _ hk0 => ⟨v, hv, w, hw, ?_⟩⟩
      have := hM k hk
      have := b1 k hk0
      have := b2 k hk0
      linarith
    · exact ⟨0, fun k _ h1 h2 h3 h4 => absurd ⟨h1, h2, h3, h4⟩ hc⟩)
  refine ⟨N, fun k argsort names t hk hr h addr i hu d hd a c hac => ?_⟩
  intro A B
  have hk0 : 0 < k := Nat.pos_of_mul_pos_right hr.someRow
  set R := rowsAt X t n addr with hR
  have hRn : ∀ i ∈ R, i < n := rowsAt_lt
  obtain ⟨hRne, hlev⟩ := level_rows .regression hk0 hr h addr _ hu
  rw [← hR] at hlev hRne
  have hRpos := List.length_pos_iff.2 hRne
  obtain ⟨⟨r, hrR, hra⟩, ⟨r', hrR', hrc⟩, hlt, -, -⟩ := id hac
  have hA0 : A ≠ [] := List.ne_nil_of_mem (List.mem_map_of_mem (List.mem_filter.2 ⟨hrR, by simp [hra]⟩))
  have hB0 : B ≠ [] := List.ne_nil_of_mem (List.mem_map_of_mem (List.mem_filter.2 ⟨hrR', by simpa [hrc] using hlt⟩))
  by_cases hall : ∀ j ∈ R, ∀ k ∈ R, y j = y k
  · have hrep : ∀ f : Nat → Bool, (R.filter f).map y = List.replicate (R.filter f).length (y r) := fun f =>
      List.eq_replicate_iff.2 ⟨by simp, fun v hv => by
        obtain ⟨s, hs, rfl⟩ := List.mem_map.1 hv
        exact hall s (List.mem_filter.1 hs).1 r hrR⟩
    have hmean : ∀ m : Nat, m ≠ 0 → mean (List.replicate m (y r)) = y r := fun m hm => by
      unfold mean
      rw [List.sum_replicate, List.length_replicate, nsmul_eq_mul]
      have : (m : ℝ) ≠ 0 := by exact_mod_cast hm
      field_simp
    have hQ : ∀ f : Nat → Bool, sqDev ((R.filter f).map y) = 0 := fun f => by
      rcases (sqDev_nonneg ((R.filter f).map y)).lt_or_eq with h0 | h0
      · obtain ⟨a', ha', b', hb', hne⟩ := sqDev_pos_iff.1 h0
        obtain ⟨s, hs, rfl⟩ := List.mem_map.1 ha'
        obtain ⟨s', hs', rfl⟩ := List.mem_map.1 hb'
        exact absurd (hall s (List.mem_filter.1 hs).1 s' (List.mem_filter.1 hs').1) hne
      · exact h0.symm
    refine ⟨?_, ?_⟩
    · show mean ((R.filter _).map y) = mean ((R.filter _).map y)
      rw [hrep, hrep, hmean, hmean]
      · exact fun h0 => hB0 (List.map_eq_nil_iff.2 (List.length_eq_zero_iff.1 h0))
      · exact fun h0 => hA0 (List.map_eq_nil_iff.2 (List.length_eq_zero_iff.1 h0))
    · show sampleVariance ((R.filter _).map y) = sampleVariance ((R.filter _).map y)
      unfold sampleVariance
      rw [hQ, hQ, zero_div, zero_div]
  · have hb := (C99_copies hk0 hr hpr hδ hprior h addr i hu).resolve_left hall
    by_contra hne
    have hQ : 0 < sqDev (A ++ B) := by
      rw [sqDev_perm (sides_perm R d a)]
      push Not at hall
      obtain ⟨j, hj, k, hk, hne⟩ := hall
      exact sqDev_pos_iff.2 ⟨y j, List.mem_map_of_mem hj, y k, List.mem_map_of_mem hk, hne⟩
    have hmem : (R, d, r) ∈ L := by
      rw [hL, List.mem_flatMap]
      refine ⟨R, List.mem_sublists.2 List.filter_sublist, ?_⟩
      rw [List.mem_flatMap]
      refine ⟨d, List.mem_range.2 hd, ?_⟩
      rw [List.mem_map]
      exact ⟨r, List.mem_range.2 (hRn r hrR), rfl⟩
    have eA : side1 (R, d, r) = A := by rw [hs1]; simp only [hra]; rfl
    have eB : side2 (R, d, r) = B := by rw [hs2]; simp only [hra]; rfl
    have hw := hN _ hmem k hk
    rw [eA, eB] at hw
    obtain ⟨v, hv, w, hw0, hlt'⟩ := hw hA0 hB0 hQ hne hk0
    have hb' := hb d hd a c hac v w hv hw0
    have hcc : 0 < cutCount hp.splitPrecision X R d := by
      have := cutCount_pos hr (((isCut_repeated hk0 (rowsAt_repeated X t k n addr)) hp.splitPrecision X d a c).2 hac)
      rwa [cutCount_repeated hk0 (rowsAt_repeated X t k n addr)] at this
    have hodds := odds_bound (n := n) (nDim := nDim) (cc := cutCount hp.splitPrecision X R d) (lv := addr.length) rfl hpp hpp1
      hcc hr.dims ((cutCount_le _ _ _ _).trans (by omega)) (by omega)
    have e : maxNormal (A ++ B) = maxNormal (R.map y) := maxNormal_perm (sides_perm R d a)
    rw [e] at hlt'
    have hb'' : (k : ℝ) * (normalLogLik A (mean A) v + normalLogLik B (mean B) w - maxNormal (R.map y)) ≤
        Real.log (1 - hp.partitionPrior ^ (addr.length + 1)) - Real.log (hp.partitionPrior ^ (addr.length + 1) /
          ((cutCount hp.splitPrecision X R d : ℝ) * (nDim : ℝ))) +
          ngSlack prior (copies k A) v + ngSlack prior (copies k B) w := hb'
    linarith

/-! ### One feature -/

theorem sum_filter_split (y : Nat → ℝ) (R : List Nat) (f : Nat → Bool) :
    ((R.filter f).map y).sum + ((R.filter fun i => !f i).map y).sum = (R.map y).sum := by
  rw [← List.sum_append, ← List.map_append]
  exact ((List.filter_append_perm f R).map y).sum_eq

/-- If all cuts along the feature have the same mean on both sides, so do the groups of rows with equal
values. -/
theorem group_mean {y x : Nat → ℝ} {R : List Nat}
    (h : ∀ a c, IsCut 0 (fun i _ => x i) R 0 a c →
      mean ((R.filter fun i => x i ≤ a).map y) = mean ((R.filter fun i => a < x i).map y))
    {r : Nat} (hr : r ∈ R) :
    mean ((R.filter fun i => x i = x r).map y) = mean (R.map y) := by
  classical
  have hRpos : (0 : ℝ) < R.length := by exact_mod_cast List.length_pos_of_mem hr
  have up : ∀ s ∈ R, ((R.filter fun i => x i ≤ x s).map y).sum * R.length =
      (R.map y).sum * (R.filter fun i => x i ≤ x s).length := by
    intro s hs
    by_cases hex : ∃ i ∈ R, x s < x i
    · have hne : (R.filter fun i => decide (x s < x i)).toFinset.Nonempty := by
        obtain ⟨i, hi, hlt⟩ := hex
        exact ⟨i, by simpa using ⟨hi, hlt⟩⟩
      obtain ⟨w, hw, hmin⟩ := Finset.exists_min_image _ x hne
      simp only [List.mem_toFinset, List.mem_filter, decide_eq_true_eq] at hw hmin
      have hcut : IsCut 0 (fun i _ => x i) R 0 (x s) (x w) :=
        ⟨⟨s, hs, rfl⟩, ⟨w, hw.1, rfl⟩, hw.2, sub_pos.2 hw.2, fun i hi => by
          rcases le_or_gt (x i) (x s) with h' | h'
          · exact .inl h'
          · exact .inr (hmin i ⟨hi, h'⟩)⟩
      have hf := h _ _ hcut
      have e : (R.filter fun i => decide (x s < x i)) = R.filter fun i => !decide (x i ≤ x s) :=
        List.filter_congr fun i _ => by rw [← decide_not]; simp only [not_le]
      unfold mean at hf
      rw [e, List.length_map, List.length_map] at hf
      have c1 := sum_filter_split y R (fun i => decide (x i ≤ x s))
      have c2 := lengths_filter R (fun i => decide (x i ≤ x s))
      have p1 : (0 : ℝ) < ((R.filter fun i => decide (x i ≤ x s)).length : ℝ) := by
        exact_mod_cast List.length_pos_of_mem (List.mem_filter.2 ⟨hs, by simp⟩)
      have p2 : (0 : ℝ) < ((R.filter fun i => !decide (x i ≤ x s)).length : ℝ) := by
        exact_mod_cast List.length_pos_of_mem (List.mem_filter.2 ⟨hw.1, by simpa using hw.2⟩)
      rw [div_eq_div_iff p1.ne' p2.ne'] at hf
      rw [← c1, ← c2]
      push_cast
      linarith
    · push Not at hex
      rw [List.filter_eq_self.2 fun i hi => by simpa using hex i hi]
  have down : ((R.filter fun i => x i < x r).map y).sum * R.length =
      (R.map y).sum * (R.filter fun i => x i < x r).length := by
    by_cases hex : ∃ i ∈ R, x i < x r
    · have hne : (R.filter fun i => decide (x i < x r)).toFinset.Nonempty := by
        obtain ⟨i, hi, hlt⟩ := hex
        exact ⟨i, by simpa using ⟨hi, hlt⟩⟩
      obtain ⟨w, hw, hmax⟩ := Finset.exists_max_image _ x hne
      simp only [List.mem_toFinset, List.mem_filter, decide_eq_true_eq] at hw hmax
      have e : (R.filter fun i => decide (x i < x r)) = R.filter fun i => decide (x i ≤ x w) :=
        List.filter_congr fun i hi => by
          rw [decide_eq_decide]
          exact ⟨fun h' => hmax i ⟨hi, h'⟩, fun h' => lt_of_le_of_lt h' hw.2⟩
      rw [e]
      exact up w hw.1
    · push Not at hex
      rw [List.filter_eq_nil_iff.2 fun i hi => by simpa using hex i hi]
      simp
  have e1 : (R.filter fun i => decide (x i ≤ x r)).filter (fun i => decide (x i < x r)) =
      R.filter fun i => decide (x i < x r) := by
    rw [List.filter_filter]
    refine List.filter_congr fun i _ => ?_
    rw [← Bool.decide_and, decide_eq_decide]
    exact ⟨fun h' => h'.1, fun h' => ⟨h', h'.le⟩⟩
  have e2 : (R.filter fun i => decide (x i ≤ x r)).filter (fun i => !decide (x i < x r)) =
      R.filter fun i => decide (x i = x r) := by
    rw [List.filter_filter]
    refine List.filter_congr fun i _ => ?_
    rw [← decide_not, ← Bool.decide_and, decide_eq_decide, not_lt]
    exact ⟨fun h' => le_antisymm h'.2 h'.1, fun h' => ⟨h'.ge, h'.le⟩⟩
  have c1 := sum_filter_split y (R.filter fun i => decide (x i ≤ x r)) (fun i => decide (x i < x r))
  have c2 := lengths_filter (R.filter fun i => decide (x i ≤ x r)) (fun i => decide (x i < x r))
  rw [e1, e2] at c1 c2
  have u := up r hr
  have p1 : (0 : ℝ) < ((R.filter fun i => decide (x i = x r)).length : ℝ) := by
    exact_mod_cast List.length_pos_of_mem (List.mem_filter.2 ⟨hr, by simp⟩)
  unfold mean
  rw [List.length_map, List.length_map, div_eq_div_iff p1.ne' hRpos.ne']
  rw [← c1, ← c2] at u
  push_cast at u
  linarith

/-- C99: with one feature and precision 0, the predictions for the training rows come arbitrarily close to the
mean of the targets of the training rows with the same feature value, with an explicit rate. -/
theorem C99_one_feature (X : Nat → Nat → ℝ) (y : Nat → ℝ) (n : Nat) (hpr : hp.prune = false) (hδ : hp.delta = 0)
    (hpp : 0 < hp.partitionPrior) (hpp1 : hp.partitionPrior < 1) (hprec : hp.splitPrecision = 0)
    (hprior : ProperNG prior) :
    ∃ N : Nat, ∀ (k : Nat) (argsort : List ℝ → List Nat) (names : List String) (t : PNode ℝ ℝ ℝ (NG ℝ)), N ≤ k →
      Training hp argsort (k * n) 1 →
      perpFitRoot (exactOps ℝ) (regTarget realFns) argsort hp (some prior) (repeated n X) (repeated n y) (k * n)
        1 names = .ok t →
      ∀ r < n, ∃ v, (predict (perpRouter (exactOps ℝ)) (regTarget realFns) t X n)[r]? = some v ∧
        let m := mean (((List.range n).filter fun i => X i 0 = X r 0).map y)
        |v - m| ≤ prior.kappa * |prior.mu - m| / (prior.kappa + k) := by
  obtain ⟨N, hN⟩ := C99_learns X y n 1 hpr hδ hpp hpp1 hprior
  refine ⟨N + 1, fun k argsort names t hk hr h r hrn => ?_⟩
  have hk0 : 0 < k := by omega
  have hT : CodeTarget realFns (regTarget realFns) (ngMarginal realFns) Spec.ngPosterior := .regression
  obtain ⟨addr, l, ha, hpass, e1, -, -⟩ := C02_exact_always_leaf (regTarget realFns) t X n r hrn
  rw [passes_eq] at hpass
  set R := rowsAt X t n addr with hR
  have hrR : r ∈ R := List.mem_filter.2 ⟨List.mem_range.2 hrn, hpass⟩
  have hmean := group_mean (y := y) (x := fun i => X i 0) (R := R) (fun a c hac =>
    (hN k argsort names t (by omega) hr h addr l ha 0 one_pos a c (by rw [hprec]; exact hac)).1) hrR
  have hgroup : (R.filter fun i => decide (X i 0 = X r 0)) =
      (List.range n).filter fun i => decide (X i 0 = X r 0) := by
    rw [hR]
    unfold rowsAt
    rw [List.filter_filter]
    refine List.filter_congr fun i _ => ?_
    by_cases he : X i 0 = X r 0
    · have : follows t addr (X i) = true := by
        rw [← hpass]
        refine follows_congr t _ _ (fun a i' sp l' b c1 c2 hu => ?_) addr
        obtain ⟨-, -, -, -, hd, -, -⟩ := C13_closed hT hr h a i' sp l' b c1 c2 hu
        have : sp.dim = 0 := by omega
        rw [this, he]
      simp [he, this]
    · simp [he]
  have hpost : l.posterior = _ := C09_closed hT hr hδ h addr _ ha
  rw [map_repeated (rowsAt_repeated X t k n addr)] at hpost
  refine ⟨_, e1, ?_⟩
  intro m
  have hm : m = mean (R.map y) := by rw [← hmean, hgroup]
  have hmu : (regTarget realFns).predictLeaf l.posterior =
      (prior.kappa * prior.mu + (k * R.length) * m) / (prior.kappa + k * R.length) := by
    show l.posterior.mu = _
    rw [hpost]
    show (prior.kappa * prior.mu + _ * mean _) / _ = _
    rw [mean_copies hk0, length_copies, ← hm, List.length_map]
    push_cast
    rfl
  have hRpos : (1 : ℝ) ≤ R.length := by exact_mod_cast List.length_pos_of_mem hrR
  have hkp : (0 : ℝ) < k := by exact_mod_cast hk0
  have hκ := hprior.1
  have hden : 0 < prior.kappa + k * R.length := by positivity
  have e : (prior.kappa * prior.mu + (k * R.length) * m) / (prior.kappa + k * R.length) - m =
      prior.kappa * (prior.mu - m) / (prior.kappa + k * R.length) := by
    field_simp
    ring
  rw [hmu, e, abs_div, abs_of_pos hden, abs_mul, abs_of_pos hκ]
  exact div_le_div_of_nonneg_left (by positivity) (by positivity) (by nlinarith)

/-- C99: if moreover rows with the same feature value have the same target, the predictions come arbitrarily
close to the training targets. -/
theorem C99_predict (X : Nat → Nat → ℝ) (y : Nat → ℝ) (n : Nat) (hpr : hp.prune = false) (hδ : hp.delta = 0)
    (hpp : 0 < hp.partitionPrior) (hpp1 : hp.partitionPrior < 1) (hprec : hp.splitPrecision = 0)
    (hprior : ProperNG prior) (hfun : ∀ i < n, ∀ j < n, X i 0 = X j 0 → y i = y j) {ε : ℝ} (hε : 0 < ε) :
    ∃ N : Nat, ∀ (k : Nat) (argsort : List ℝ → List Nat) (names : List String) (t : PNode ℝ ℝ ℝ (NG ℝ)), N ≤ k →
      Training hp argsort (k * n) 1 →
      perpFitRoot (exactOps ℝ) (regTarget realFns) argsort hp (some prior) (repeated n X) (repeated n y) (k * n)
        1 names = .ok t →
      ∀ r < n, ∃ v, (predict (perpRouter (exactOps ℝ)) (regTarget realFns) t X n)[r]? = some v ∧ |v - y r| < ε := by
  obtain ⟨N, hN⟩ := C99_one_feature X y n hpr hδ hpp hpp1 hprec hprior
  obtain ⟨M, hM⟩ := uniform_bound (List.range n)
    (fun r k => prior.kappa * |prior.mu - y r| / (prior.kappa + k) < ε) fun r _ => by
      obtain ⟨M, hM⟩ := exists_nat_gt (prior.kappa * |prior.mu - y r| / ε)
      refine ⟨M, fun k hk => ?_⟩
      have hκ := hprior.1
      have hkM : (M : ℝ) ≤ k := by exact_mod_cast hk
      rw [div_lt_iff₀ hε] at hM
      rw [div_lt_iff₀ (by positivity)]
      nlinarith
  refine ⟨max N M, fun k argsort names t hk hr h r hrn => ?_⟩
  obtain ⟨v, h1, h2⟩ := hN k argsort names t ((le_max_left _ _).trans hk) hr h r hrn
  have hm : mean (((List.range n).filter fun i => decide (X i 0 = X r 0)).map y) = y r := by
    have hrep : ((List.range n).filter fun i => decide (X i 0 = X r 0)).map y =
        List.replicate ((List.range n).filter fun i => decide (X i 0 = X r 0)).length (y r) :=
      List.eq_replicate_iff.2 ⟨by simp, fun v hv => by
        obtain ⟨s, hs, rfl⟩ := List.mem_map.1 hv
        obtain ⟨hs1, hs2⟩ := List.mem_filter.1 hs
        exact hfun s (List.mem_range.1 hs1) r hrn (by simpa using hs2)⟩
    have hpos : (((List.range n).filter fun i => decide (X i 0 = X r 0)).length : ℝ) ≠ 0 := by
      have := List.length_pos_of_mem (List.mem_filter.2 ⟨List.mem_range.2 hrn, by simp⟩ :
        r ∈ (List.range n).filter fun i => decide (X i 0 = X r 0))
      exact_mod_cast this.ne'
    rw [hrep]
    unfold mean
    rw [List.sum_replicate, List.length_replicate, nsmul_eq_mul]
    field_simp
  refine ⟨v, h1, ?_⟩
  simp only [hm] at h2
  exact lt_of_le_of_lt h2 (hM r (List.mem_range.2 hrn) k ((le_max_right _ _).trans hk))

end

theorem twenty_copies (h : ((20 : Nat) : ℝ) * (normalLogLik [0] (mean [0]) (1 / 4) + normalLogLik [1] (mean [1]) (1 / 4) -
    maxNormal [0, 1]) ≤ Real.log (1 - (9 / 10 : ℝ) ^ (0 + 1)) -
    Real.log ((9 / 10 : ℝ) ^ (0 + 1) / (((1 : Nat) : ℝ) * ((1 : Nat) : ℝ))) +
    ngSlack ⟨0, 1, 1, 1⟩ (copies 20 [(0 : ℝ)]) (1 / 4) + ngSlack ⟨0, 1, 1, 1⟩ (copies 20 [(1 : ℝ)]) (1 / 4)) :
    False := by
  have e1 : Real.log (1 - (9 / 10 : ℝ) ^ (0 + 1)) -
      Real.log ((9 / 10 : ℝ) ^ (0 + 1) / (((1 : Nat) : ℝ) * ((1 : Nat) : ℝ))) = - Real.log 9 := by
    rw [← Real.log_div (by norm_num) (by norm_num), ← Real.log_inv]
    congr 1
    norm_num
  have e2 : normalLogLik [0] (mean [0]) (1 / 4) + normalLogLik [1] (mean [1]) (1 / 4) - maxNormal [0, 1] = 1 := by
    have : sampleVariance [(0 : ℝ), 1] = 1 / 4 := by
      simp [sampleVariance, sqDev, mean]; norm_num
    unfold maxNormal
    rw [this]
    simp [normalLogLik, mean]
    ring
  have e3 : ngSlack ⟨0, 1, 1, 1⟩ (copies 20 [(0 : ℝ)]) (1 / 4) = Real.log 11 + Real.log 21 / 2 + 4 - Real.log 4 := by
    unfold ngSlack
    rw [mean_copies (by omega), length_copies]
    have : Real.log (1 / 4) = - Real.log 4 := by rw [one_div, Real.log_inv]
    simp only [this]
    norm_num [mean, Real.Gamma_one]
    ring
  have e4 : ngSlack ⟨0, 1, 1, 1⟩ (copies 20 [(1 : ℝ)]) (1 / 4) = Real.log 11 + Real.log 21 / 2 + 6 - Real.log 4 := by
    unfold ngSlack
    rw [mean_copies (by omega), length_copies]
    have : Real.log (1 / 4) = - Real.log 4 := by rw [one_div, Real.log_inv]
    simp only [this]
    norm_num [mean, Real.Gamma_one]
    ring
  rw [e1, e2, e3, e4] at h
  have h2 : Real.log ((11 : ℝ) ^ 2 * 21) ≤ Real.log ((9 : ℝ) * 4 ^ 2 * 32) := Real.log_le_log (by norm_num) (by norm_num)
  rw [Real.log_mul (by norm_num) (by norm_num), Real.log_mul (by norm_num) (by norm_num),
    Real.log_mul (by norm_num) (by norm_num), Real.log_pow, Real.log_pow] at h2
  have h3 : Real.log 32 = 5 * Real.log 2 := by
    rw [show (32 : ℝ) = 2 ^ 5 by norm_num, Real.log_pow]; norm_num
  have h4 := Real.log_le_sub_one_of_pos (two_pos : (0 : ℝ) < 2)
  push_cast at h h2
  linarith

/-- Twenty copies of the rows 0 ↦ 0 and 1 ↦ 1 are split. -/
example : let hp : Hyper ℝ := ⟨9 / 10, 0, false, 0⟩
    let X : Nat → Nat → ℝ := fun i _ => (i : ℝ)
    let y : Nat → ℝ := fun i => (i : ℝ)
    ∃ t, perpFitRoot (exactOps ℝ) (regTarget realFns) realSort hp (some ⟨0, 1, 1, 1⟩) (repeated 2 X) (repeated 2 y)
      (20 * 2) 1 ["x"] = .ok t ∧ t.isLeaf = false := by
  intro hp X y
  have hT : CodeTarget realFns (regTarget realFns) (ngMarginal realFns) Spec.ngPosterior := .regression
  have hr : Training hp realSort (20 * 2) 1 := ⟨le_refl _, realSort_sorts, by decide, by decide, by decide⟩
  have hprior : ProperNG (⟨0, 1, 1, 1⟩ : NG ℝ) := ⟨one_pos, one_pos, one_pos⟩
  obtain ⟨t, ht⟩ := C12_closed hT hr (names := ["x"]) (repeated 2 X) (repeated 2 y) (some ⟨0, 1, 1, 1⟩) (by simp)
  refine ⟨t, ht, ?_⟩
  cases t with
  | split i sp l b c1 c2 => rfl
  | leaf i =>
    exfalso
    have hR : rowsAt X (.leaf i : PNode ℝ ℝ ℝ (NG ℝ)) 2 [] = [0, 1] := by
      simp [rowsAt, follows, List.range_succ]
    have hcut : IsCut hp.splitPrecision X (rowsAt X (.leaf i : PNode ℝ ℝ ℝ (NG ℝ)) 2 []) 0 0 1 := by
      rw [hR]
      refine ⟨⟨0, by simp, by simp [X]⟩, ⟨1, by simp, by simp [X]⟩, one_pos, by simp [hp], ?_⟩
      intro i hi
      simp only [List.mem_cons, List.not_mem_nil, or_false] at hi
      rcases hi with rfl | rfl <;> simp [X]
    rcases C99_copies (k := 20) (by omega) hr rfl rfl hprior ht [] i (nodeAt_nil _) with h | h
    · rw [hR] at h
      have := h 0 (by simp) 1 (by simp)
      simp [y] at this
    · have h := h 0 one_pos 0 1 hcut (1 / 4) (1 / 4) (by norm_num) (by norm_num)
      rw [hR] at h
      have eA : (List.filter (fun i => decide (X i 0 ≤ 0)) [0, 1]).map y = [0] := by simp [X, y]
      have eB : (List.filter (fun i => decide (0 < X i 0)) [0, 1]).map y = [1] := by simp [X, y]
      have eC : List.map y [0, 1] = [0, 1] := by simp [y]
      have hcc : cutCount hp.splitPrecision X [0, 1] 0 = 1 := by
        have e : (List.map (fun i => X i 0) [0, 1]).dedup = [0, 1] := by simp [X, List.dedup_cons_of_notMem]
        unfold cutCount
        rw [e]
        simp [X, hp]
      rw [eA, eB, eC, hcc] at h
      exact twenty_copies h

end BT
