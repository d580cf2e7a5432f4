import Verif.Spec.RandomSearch
import Verif.Lemmas.Gaussian
import Verif.Props.QuasiSearch
import Mathlib.Probability.Independence.InfinitePi

/-!
# Random directions: C106
-/

noncomputable section

namespace BT

open Spec SphereLaw MeasureTheory ProbabilityTheory Filter Topology Set
open scoped ENNReal

section
variable {Ω : Type} [MeasurableSpace Ω] {μ : Measure Ω}

/-! ## The distribution of the directions -/

/-- C106: the direction of every normal drawn is uniform on the sphere: it lies in `A` with the probability that
is the fraction of the ball seen in the directions `A`. -/
theorem C106_uniform {D : Nat} (hD : 1 ≤ D) {Z : Nat → Ω → Fin (D + 1) → ℝ} (hZ : NormalDraws μ Z)
    (A : Set (Fin (D + 1) → ℝ)) (hA : MeasurableSet A) (i : Nat) :
    μ {ω | direction (Z i ω) ∈ A} = volume (sector false A) / volume (unitBall false (D + 1)) := by
  obtain ⟨x, C, hx, hpt, hunit, hpol⟩ := exists_polar false D (Or.inl hD)
  have h1 := gauss_direction hx.measurable hunit hpol hA
  have h2 := sector_volume false hx.measurable hunit hpol hA
  have h3 := sector_volume false hx.measurable hunit hpol (MeasurableSet.univ (α := Fin (D + 1) → ℝ))
  simp only [mem_univ, ofPred_true, measure_univ, mul_one] at h3
  rw [sector_univ] at h3
  obtain ⟨h0, ht⟩ := unitBall_volume false D
  have e : μ {ω | direction (Z i ω) ∈ A} = gauss (D + 1) (dirOf ⁻¹' A) := by
    unfold gauss
    rw [← hZ.law i, Measure.map_apply (hZ.measurable i) (measurable_dirOf hA)]
    rfl
  rw [e, h1, h2, ← h3, mul_comm, ENNReal.mul_div_cancel_right h0 ht]

/-- C106: the same probability as with the points of the cube (mapped to the full sphere) that the other
optimizers use. -/
theorem C106_cube {D : Nat} (hD : 1 ≤ D) {Z : Nat → Ω → Fin (D + 1) → ℝ} (hZ : NormalDraws μ Z)
    (A : Set (Fin (D + 1) → ℝ)) (hA : MeasurableSet A) (i : Nat) :
    μ {ω | direction (Z i ω) ∈ A} = volume (directionsFrom false D A) :=
  (C106_uniform hD hZ A hA i).trans (C103_uniform false D hD A hA).symm

theorem draws_miss {d : Nat} {Z : Nat → Ω → Fin d → ℝ} (hZ : NormalDraws μ Z) {B : Set (Fin d → ℝ)}
    (hB : MeasurableSet B) (m : Nat) : μ {ω | ∀ i < m, Z i ω ∉ B} = (1 - gauss d B) ^ m := by
  have h := hZ.independent.measure_inter_preimage_eq_mul (Finset.range m) (sets := fun _ => Bᶜ)
    (fun _ _ => hB.compl)
  have e : {ω | ∀ i < m, Z i ω ∉ B} = ⋂ i ∈ Finset.range m, Z i ⁻¹' Bᶜ := by
    ext ω
    simp
  have hi : ∀ i, μ (Z i ⁻¹' Bᶜ) = 1 - gauss d B := by
    intro i
    rw [← Measure.map_apply (hZ.measurable i) hB.compl, hZ.law i]
    exact prob_compl_eq_one_sub hB
  rw [e, h]
  simp only [hi, Finset.prod_const, Finset.card_range]

/-- C106: the probability that `m` draws all miss the directions `A`. -/
theorem C106_miss {D : Nat} (hD : 1 ≤ D) {Z : Nat → Ω → Fin (D + 1) → ℝ} (hZ : NormalDraws μ Z)
    (A : Set (Fin (D + 1) → ℝ)) (hA : MeasurableSet A) (m : Nat) :
    μ {ω | ∀ i < m, direction (Z i ω) ∉ A} =
      (1 - volume (sector false A) / volume (unitBall false (D + 1))) ^ m := by
  have h := draws_miss hZ (measurable_dirOf hA) m
  rw [← C106_uniform hD hZ A hA 0]
  have e : μ {ω | direction (Z 0 ω) ∈ A} = gauss (D + 1) (dirOf ⁻¹' A) := by
    unfold gauss
    rw [← hZ.law 0, Measure.map_apply (hZ.measurable 0) (measurable_dirOf hA)]
    rfl
  rw [e, ← h]
  rfl

/-! ## The draws are dense -/

theorem gauss_open_pos {d : Nat} {B : Set (Fin d → ℝ)} (hB : IsOpen B) (hne : B.Nonempty) : 0 < gauss d B := by
  have : Measure.IsOpenPosMeasure (gaussianReal 0 1) :=
    (gaussianReal_absolutelyContinuous' 0 one_ne_zero).isOpenPosMeasure
  unfold gauss
  exact hB.measure_pos _ hne

theorem draws_dense {d : Nat} {Z : Nat → Ω → Fin d → ℝ} (hZ : NormalDraws μ Z) :
    ∀ᵐ ω ∂μ, Dense (range fun i => Z i ω) := by
  have key : ∀ B ∈ TopologicalSpace.countableBasis (Fin d → ℝ), ∀ᵐ ω ∂μ, ∃ i, Z i ω ∈ B := by
    intro B hB
    have hopen := TopologicalSpace.isOpen_of_mem_countableBasis hB
    have hpos := gauss_open_pos hopen (TopologicalSpace.nonempty_of_mem_countableBasis hB)
    rw [ae_iff]
    have hlt : 1 - gauss d B < 1 := ENNReal.sub_lt_self ENNReal.one_ne_top one_ne_zero hpos.ne'
    refine le_antisymm ?_ zero_le
    refine ge_of_tendsto' (ENNReal.tendsto_pow_atTop_nhds_zero_of_lt_one hlt) fun m => ?_
    rw [← draws_miss hZ hopen.measurableSet m]
    refine measure_mono fun ω hω i _ hi => hω ⟨i, hi⟩
  filter_upwards [(ae_ball_iff (TopologicalSpace.countable_countableBasis _)).2 key] with ω hω
  rw [(TopologicalSpace.isBasis_countableBasis _).dense_iff]
  rintro B hB -
  obtain ⟨i, hi⟩ := hω B hB
  exact ⟨_, hi, i, rfl⟩

end

/-! ## The directions evaluated -/

theorem random_resume {R P S : Type} {G : Rng R ℝ} {q : HProb ℝ P S} {us : Nat → List ℝ} {s : Nat → R}
    (hs : ∀ i, G.normal q.nDim (s i) = (us i, s (i + 1))) (l : List Nat) (j : Nat) (vals : List S) :
    (Prog.loop (fun g (_ : Nat) =>
      let d := G.normal q.nDim g
      .eval (fvec d.1) fun _ => .ret d.2) l (s j) : Prog ℝ S R).resume vals =
      if vals.length < l.length then .eval (fvec (us (j + vals.length))) else .stop := by
  induction l generalizing vals j with
  | nil => rfl
  | cons x l ih =>
    rw [Prog.loop]
    simp only [hs]
    cases vals with
    | nil => rfl
    | cons v vs =>
      have := ih (j + 1) vs
      rw [show j + 1 + vs.length = j + (v :: vs).length by simp; omega] at this
      simp only [List.length_cons, Nat.add_lt_add_iff_right] at this ⊢
      exact this

theorem random_follows {R P S : Type} {G : Rng R ℝ} {m d : Nat} {q : HProb ℝ P S} (hdim : q.nDim = d)
    {z : Nat → Fin d → ℝ} (hz : Drawn G z) {vs : List (RawVec ℝ × S)}
    (hf : Follows (randomSolve G m q).strategy vs) {i : Nat} (hi : i < m) : fvec (List.ofFn (z i)) ∈ vs.map Prod.fst := by
  obtain ⟨s, h0, hs⟩ := hz
  have hs : ∀ i, G.normal q.nDim (s i) = (List.ofFn (z i), s (i + 1)) := by rw [hdim]; exact hs
  have hres : ∀ hist : List (RawVec ℝ × S), (randomSolve G m q).strategy hist =
      if hist.length < m then .eval (fvec (List.ofFn (z hist.length))) else .stop := by
    intro hist
    have := random_resume hs (List.range m) 0 (hist.reverse.map Prod.snd)
    rw [List.length_map, List.length_reverse, List.length_range, Nat.zero_add, h0] at this
    exact this
  have hlen : m ≤ vs.length := by
    have h := (hf vs.length).2 rfl
    rw [hres, List.length_reverse] at h
    by_contra hlt
    rw [if_pos (by omega)] at h
    cases h
  have hget : vs[i]? = some (vs[i]'(by omega)) := List.getElem?_eq_getElem _
  have h := (hf i).1 (vs[i]'(by omega)).1 (vs[i]'(by omega)).2 hget
  rw [hres, List.length_reverse, List.length_take, Nat.min_eq_left (by omega), if_pos hi] at h
  have hr : fvec (List.ofFn (z i)) = (vs[i]'(by omega)).1 := by
    injection h
  rw [hr]
  exact List.mem_map.2 ⟨_, List.getElem_mem _, rfl⟩

theorem isDirection_ofFn {d : Nat} {z : Fin d → ℝ} (hz : 0 < nsq z) :
    IsDirection ((List.ofFn z).map XF.fin) (List.ofFn (dirOf z)) := by
  have hs := Real.sqrt_pos.2 hz
  refine ⟨by simp, ?_, Or.inl ⟨Real.sqrt (nsq z), hs, ?_⟩⟩
  · have := sumSq_ofFn (dirOf z)
    unfold sumSq at this
    rw [this]
    have e : dirOf z = (Real.sqrt (nsq z))⁻¹ • z := by
      funext i
      unfold dirOf
      rw [Pi.smul_apply, smul_eq_mul, div_eq_inv_mul]
    rw [e, nsq_smul, inv_pow, Real.sq_sqrt hz.le, inv_mul_cancel₀ hz.ne']
  · rw [List.map_map, List.map_ofFn, List.map_ofFn]
    congr 1
    funext i
    show z i = Real.sqrt (nsq z) * (z i / Real.sqrt (nsq z))
    rw [mul_div_cancel₀ _ hs.ne']

theorem random_near {d : Nat} {z : Nat → Fin d → ℝ} (hz : Dense (range z)) {w : List ℝ} (hw : HalfSphere d w)
    {prec : ℝ} {X : Nat → Nat → ℝ} {R : List Nat} (h : Stable prec X R w) :
    ∃ i w', (0 < nsq (z i) ∧ w' = List.ofFn (dirOf (z i))) ∧ Agrees prec X R w w' := by
  obtain ⟨hl, hunit, -⟩ := hw
  obtain ⟨x, rfl⟩ : ∃ x : Fin d → ℝ, w = List.ofFn x := by
    subst hl
    exact ⟨w.get, (List.ofFn_get w).symm⟩
  have hx : nsq x = 1 := by
    have := sumSq_ofFn x
    unfold sumSq at this
    rw [← this, hunit]
  have hc : Continuous (nsq (m := d)) := by unfold nsq; fun_prop
  have hdir : dirOf x = x := by
    funext i
    unfold dirOf
    rw [hx, Real.sqrt_one, div_one]
  have hcont : ContinuousAt (dirOf (n := d)) x := by
    refine continuousAt_pi.2 fun i => (continuous_apply i).continuousAt.div
      (Real.continuous_sqrt.comp hc).continuousAt ?_
    simp [hx]
  have e1 : ∀ᶠ y in 𝓝 x, Agrees prec X R (List.ofFn x) (List.ofFn (dirOf y)) :=
    hcont.eventually (by rw [hdir]; exact agrees_near h)
  have e2 : ∀ᶠ y in 𝓝 x, 0 < nsq y := continuousAt_const.eventually_lt hc.continuousAt (by rw [hx]; exact one_pos)
  obtain ⟨B, hB, hopen, hxB⟩ := eventually_nhds_iff.1 (e1.and e2)
  obtain ⟨y, hy, i, rfl⟩ := hz.inter_open_nonempty B hopen ⟨x, hxB⟩
  exact ⟨i, _, ⟨(hB _ hy).2, rfl⟩, (hB _ hy).1⟩

/-! ## Fitted trees -/

section
variable {F : Fns ℝ} {P O : Type} {ml : P → List ℝ → ℝ} {post : P → List ℝ → P}

theorem random_search {d : Nat} {z : Nat → Fin d → ℝ} (hz : Dense (range z)) (prec : ℝ) (X : Nat → Nat → ℝ) (n : Nat) :
    ∃ N, ∀ (R : Type) (G : Rng R ℝ) (T : Target ℝ P ℝ O) (q : HProb ℝ P ℝ) (A : HArith ℝ)
      (vs : List (RawVec ℝ × ℝ)) (st : HState ℝ ℝ) (m : Nat), N ≤ m → Drawn G z →
      CodeTarget F T ml post → Euclidean A → q.X = X → q.prec = prec → q.nDim = d → q.hypercube = false →
      q.rows.Sublist (List.range n) →
      Follows (randomSolve G m q).strategy vs → Searched A (mlPair F ml) q (vs.map Prod.fst) st →
      NoneBetter F ml q st.bestScore := by
  obtain ⟨N, hN⟩ := uniform_of_near (HalfSphere d) (fun i w' => 0 < nsq (z i) ∧ w' = List.ofFn (dirOf (z i))) prec X
    (fun R w hw hst => random_near hz hw hst) n
  refine ⟨N, ?_⟩
  rintro R G T q A vs st m hm hG hT hA rfl rfl hdim hcube hsub hf hs w hw hst
  rw [hdim] at hw
  obtain ⟨i, hi, w', ⟨hpos, rfl⟩, ha⟩ := hN q.rows hsub w hw hst
  have hmem := random_follows hdim hG hf (hi.trans_le hm)
  have hn : hNormal A q (fvec (List.ofFn (z i))) = .ok (List.ofFn (dirOf (z i))) :=
    (C48_closed_direction hA hcube _ _).2 ⟨by simp [hdim], isDirection_ofFn hpos⟩
  obtain ⟨order, ho, hb⟩ := searched_upper hT hA hs hmem hn
  refine ⟨order, ha.sweep order ho, fun k hk => ?_⟩
  have := hb k ((ha.considered k).2 hk)
  unfold sweepScore at this ⊢
  rw [ha.count] at this
  exact this

variable {Ω : Type} [MeasurableSpace Ω] {μ : Measure Ω}

/-- C106: with probability one the random search is optimal in the limit: for every matrix there is a number of
draws from which on the plane of every split of the tree scores at least as much as every position considered
along any direction, except directions along which neighbouring rows differ by exactly the precision.  The number
works for all targets, priors and both target models. -/
theorem C106_split {R : Type} {d : Nat} (G : Ω → Rng R ℝ) (Z : Nat → Ω → Fin d → ℝ) (hZ : NormalDraws μ Z)
    (hG : ∀ ω, Drawn (G ω) fun i => Z i ω) :
    ∀ᵐ ω ∂μ, ∀ (prec : ℝ) (X : Nat → Nat → ℝ) (n : Nat), 0 < n →
      ∃ N, ∀ (c : HCtx ℝ P ℝ O) (m : Nat) (prior : P) (t : HNode ℝ ℝ P), N ≤ m → CodeTarget F c.T ml post →
        Euclidean c.A → c.X = X → c.hp.splitPrecision = prec → c.nDim = d → c.opt = randomOptimizer (G ω) m →
        hFitRoot c (some prior) n = .ok t → ∀ addr i sp l b c1 c2, nodeAt t addr = some (.split i sp l b c1 c2) →
          NoneBetter F ml (searchAt c F ml prior addr.length (hRowsAt c.X t n addr)) b := by
  filter_upwards [draws_dense hZ] with ω hω prec X n hn
  obtain ⟨N, hN⟩ := random_search (F := F) (P := P) (O := O) (ml := ml) (post := post) hω prec X n
  refine ⟨N, ?_⟩
  rintro c m prior t hm hT hA rfl rfl hdim hopt h
  exact split_noneBetter hn hT hA h fun lv R vs st hR hf hs => hN _ (G ω) c.T _ c.A vs st m hm (hG ω) hT hA rfl rfl
    hdim (by unfold searchAt; rw [hopt]; rfl) hR (by rw [hopt] at hf; exact hf) hs

/-- C106: with the same number of draws, for the leaves of an unpruned tree: all targets of its rows are equal, or
no position along any such direction scores more than staying, or more than the best plane found, which then has
all rows of the leaf on one side. -/
theorem C106_leaf {R : Type} {d : Nat} (G : Ω → Rng R ℝ) (Z : Nat → Ω → Fin d → ℝ) (hZ : NormalDraws μ Z)
    (hG : ∀ ω, Drawn (G ω) fun i => Z i ω) :
    ∀ᵐ ω ∂μ, ∀ (prec : ℝ) (X : Nat → Nat → ℝ) (n : Nat), 0 < n →
      ∃ N, ∀ (c : HCtx ℝ P ℝ O) (m : Nat) (prior : P) (t : HNode ℝ ℝ P), N ≤ m → CodeTarget F c.T ml post →
        Euclidean c.A → c.X = X → c.hp.splitPrecision = prec → c.nDim = d → c.opt = randomOptimizer (G ω) m →
        c.hp.prune = false → hFitRoot c (some prior) n = .ok t → ∀ addr i, nodeAt t addr = some (.leaf i) →
          (∀ a ∈ hRowsAt c.X t n addr, ∀ b ∈ hRowsAt c.X t n addr, c.y a = c.y b) ∨
          ∃ s, NoneBetter F ml (searchAt c F ml prior addr.length (hRowsAt c.X t n addr)) s ∧
            (s = stayScore F ml c.hp c.y prior addr.length (hRowsAt c.X t n addr) ∨
              ∃ sp, BestAlong F ml (searchAt c F ml prior addr.length (hRowsAt c.X t n addr)) s sp ∧
                ((∀ a ∈ hRowsAt c.X t n addr, planeSide sp.normal sp.origin (c.X a) < 0) ∨
                  ∀ a ∈ hRowsAt c.X t n addr, 0 ≤ planeSide sp.normal sp.origin (c.X a))) := by
  filter_upwards [draws_dense hZ] with ω hω prec X n hn
  obtain ⟨N, hN⟩ := random_search (F := F) (P := P) (O := O) (ml := ml) (post := post) hω prec X n
  refine ⟨N, ?_⟩
  rintro c m prior t hm hT hA rfl rfl hdim hopt hprune h
  exact leaf_noneBetter hn hT hA hprune h fun lv R vs st hR hf hs => hN _ (G ω) c.T _ c.A vs st m hm (hG ω) hT hA rfl
    rfl hdim (by unfold searchAt; rw [hopt]; rfl) hR (by rw [hopt] at hf; exact hf) hs

end

/-! ## The hypotheses are satisfiable -/

/-- A generator that returns given vectors. -/
def tapeRng {d : Nat} (z : Nat → Fin d → ℝ) : Rng Nat ℝ where
  init := 0
  uniform lo _ n g := (List.replicate n lo, g + 1)
  randint _ g := (0, g + 1)
  normal n g := (if n = d then List.ofFn (z g) else List.replicate n 1, g + 1)

theorem tapeRng_lawful {d : Nat} (z : Nat → Fin d → ℝ) : LawfulRng (tapeRng z) where
  uniform_length lo hi n g := by simp [tapeRng]
  uniform_mem lo hi n g h a ha := by
    have := List.eq_of_mem_replicate ha
    exact ⟨this ▸ le_rfl, this ▸ h⟩
  randint_lt n g hn := hn
  normal_length n g := by
    unfold tapeRng
    simp only
    split
    · next h => simp [h]
    · simp

theorem tapeRng_drawn {d : Nat} (z : Nat → Fin d → ℝ) : Drawn (tapeRng z) z :=
  ⟨id, rfl, fun i => by simp [tapeRng]⟩

/-- There are such draws, and a generator returning them. -/
example (d : Nat) : ∃ (μ : Measure (Nat → Fin d → ℝ)) (Z : Nat → (Nat → Fin d → ℝ) → Fin d → ℝ)
    (G : (Nat → Fin d → ℝ) → Rng Nat ℝ), IsProbabilityMeasure μ ∧ NormalDraws μ Z ∧
      (∀ ω, Drawn (G ω) fun i => Z i ω) ∧ ∀ ω, LawfulRng (G ω) := by
  refine ⟨Measure.infinitePi fun _ => gauss d, fun i ω => ω i, tapeRng, inferInstance, ⟨fun i => measurable_pi_apply i,
    ?_, fun i => ?_⟩, fun ω => tapeRng_drawn ω, tapeRng_lawful⟩
  · exact iIndepFun_infinitePi (X := fun _ => id) fun _ => measurable_id
  · exact Measure.infinitePi_map_eval (fun _ : Nat => gauss d) i

/-- For every data set almost all generators need finitely many draws, and the fit succeeds. -/
example {Ω : Type} [MeasurableSpace Ω] (μ : Measure Ω) (d : Nat) (hd : 0 < d) (Z : Nat → Ω → Fin d → ℝ)
    (hZ : NormalDraws μ Z) (X : Nat → Nat → ℝ) (y : Nat → ℝ) (hp : Hyper ℝ) (p : NG ℝ) :
    ∀ᵐ ω ∂μ, ∃ m t, ∃ c : HCtx ℝ (NG ℝ) ℝ ℝ, c.X = X ∧ c.y = y ∧ c.nDim = d ∧
      c.opt = randomOptimizer (tapeRng fun i => Z i ω) m ∧ hFitRoot c (some p) 9 = .ok t ∧
      ∀ addr i sp l b c1 c2, nodeAt t addr = some (.split i sp l b c1 c2) →
        NoneBetter realFns (Spec.ngMarginal realFns) (searchAt c realFns (Spec.ngMarginal realFns) p addr.length
          (hRowsAt c.X t 9 addr)) b := by
  filter_upwards [C106_split (F := realFns) (P := NG ℝ) (O := ℝ) (ml := Spec.ngMarginal realFns)
    (post := Spec.ngPosterior) (fun ω => tapeRng fun i => Z i ω) Z hZ fun ω => tapeRng_drawn _] with ω hω
  obtain ⟨N, hN⟩ := hω hp.splitPrecision X 9 (by decide)
  let c : HCtx ℝ (NG ℝ) ℝ ℝ := ⟨exactArith (insArgsort (exactOps ℝ).le), regTarget realFns, hp,
    randomOptimizer (tapeRng fun i => Z i ω) N, 0, X, y, d⟩
  obtain ⟨B, t, ht⟩ := C67_random (pair := regPair realFns) c (some p) 9 (reg_lawful realFns) realSort_spec hd
    (tapeRng fun i => Z i ω) (tapeRng_lawful _) N
  refine ⟨N, t, withOpt c (randomOptimizer (tapeRng fun i => Z i ω) N) B, rfl, rfl, rfl, rfl, ht B le_rfl, ?_⟩
  exact hN _ N p t le_rfl .regression exactArith_euclidean rfl rfl rfl rfl (ht B le_rfl)

end BT
