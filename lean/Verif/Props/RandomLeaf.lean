import Verif.Props.HyperLeaf
import Verif.Props.RandomSearch
import Mathlib.MeasureTheory.Measure.Lebesgue.EqHaar

/-!
# C125 and C106: leaves of trees fitted with random normals to rows that are different points
-/

noncomputable section

namespace BT

open Spec SphereLaw MeasureTheory ProbabilityTheory Filter Topology Set
open scoped ENNReal

/-- A random vector is not orthogonal to a given one. -/
theorem gauss_hyperplane {d : Nat} {v : Fin d → ℝ} (hv : ∃ k, v k ≠ 0) : gauss d {z | ∑ k, v k * z k = 0} = 0 := by
  have hvol : (volume : Measure (Fin d → ℝ)) {z | ∑ k, v k * z k = 0} = 0 := by
    let L : (Fin d → ℝ) →ₗ[ℝ] ℝ := ∑ k, v k • LinearMap.proj k
    have hL : ∀ z, L z = ∑ k, v k * z k := by
      intro z
      simp [L, LinearMap.sum_apply]
    have e : {z : Fin d → ℝ | ∑ k, v k * z k = 0} = (LinearMap.ker L : Set (Fin d → ℝ)) := by
      ext z
      simp [← hL]
    rw [e]
    refine Measure.addHaar_submodule _ _ fun htop => ?_
    obtain ⟨k, hk⟩ := hv
    have : Pi.single k (1 : ℝ) ∈ LinearMap.ker L := by rw [htop]; trivial
    rw [LinearMap.mem_ker, hL] at this
    simp [Pi.single_apply, hk] at this
  rw [gauss_density]
  exact withDensity_absolutelyContinuous _ _ hvol

theorem random_follows_mem {R P S : Type} {G : Rng R ℝ} {m d : Nat} {q : HProb ℝ P S} (hdim : q.nDim = d)
    {z : Nat → Fin d → ℝ} (hz : Drawn G z) {vs : List (RawVec ℝ × S)}
    (hf : Follows (randomSolve G m q).strategy vs) {e : RawVec ℝ × S} (he : e ∈ vs) :
    ∃ i, e.1 = fvec (List.ofFn (z i)) := by
  obtain ⟨s, h0, hs⟩ := hz
  have hs : ∀ i, G.normal q.nDim (s i) = (List.ofFn (z i), s (i + 1)) := by rw [hdim]; exact hs
  obtain ⟨i, hi⟩ := List.mem_iff_getElem?.1 he
  have h := (hf i).1 e.1 e.2 hi
  have hres := random_resume hs (List.range m) 0 ((vs.take i).reverse.reverse.map Prod.snd)
  rw [h0] at hres
  have h' := hres.symm.trans h
  split at h'
  · injection h' with h''
    exact ⟨_, h''.symm⟩
  · cases h'

/-- Coordinates along the direction of a vector. -/
theorem along_direction {d : Nat} {z : Fin d → ℝ} {w : List ℝ} (hw : IsDirection ((List.ofFn z).map XF.fin) w)
    (hz : ∃ k, z k ≠ 0) : ∃ r : ℝ, 0 < r ∧ ∀ x : Nat → ℝ, ∑ k : Fin d, x k * z k = r * along w x := by
  obtain ⟨hl, -, ⟨r, hr, e⟩ | ⟨h0, -⟩⟩ := hw
  · refine ⟨r, hr, fun x => ?_⟩
    have hl' : w.length = d := by simpa using hl
    have hget : ∀ k : Fin d, z k = r * w.getD k 0 := by
      intro k
      have := congrArg (fun l => l[(k : Nat)]?) e
      have hk : (k : Nat) < w.length := by rw [hl']; exact k.2
      simp only [List.getElem?_map, List.getElem?_ofFn, k.2, dif_pos, Option.map_some,
        List.getElem?_eq_getElem hk] at this
      rw [List.getD_eq_getElem?_getD, List.getElem?_eq_getElem hk]
      exact Option.some.inj this
    have hsum : along w x = ∑ k : Fin d, x k * w.getD k 0 := by
      unfold along
      rw [hl', ← Finset.sum_range (fun k => x k * w.getD k 0)]
      rfl
    rw [hsum, Finset.mul_sum]
    refine Finset.sum_congr rfl fun k _ => ?_
    rw [hget k]
    ring
  · obtain ⟨k, hk⟩ := hz
    exact absurd (h0 (XF.fin (z k)) (by simp)) hk

section
variable {Ω : Type} [MeasurableSpace Ω] {μ : Measure Ω}

/-- With probability one no normal drawn has two of finitely many different points at the same coordinate. -/
theorem draws_apart {d : Nat} {Z : Nat → Ω → Fin d → ℝ} (hZ : NormalDraws μ Z) {X : Nat → Nat → ℝ} {n : Nat}
    (hX : ∀ i < n, ∀ j < n, i ≠ j → ∃ k < d, X i k ≠ X j k) :
    ∀ᵐ ω ∂μ, ∀ m, ∀ i < n, ∀ j < n, i ≠ j → ∑ k : Fin d, X i k * Z m ω k ≠ ∑ k : Fin d, X j k * Z m ω k := by
  rw [ae_all_iff]
  intro m
  rw [ae_all_iff]; intro i
  rw [eventually_imp_distrib_left]; intro hi
  rw [ae_all_iff]; intro j
  rw [eventually_imp_distrib_left]; intro hj
  rw [eventually_imp_distrib_left]; intro hij
  have hset : MeasurableSet {z : Fin d → ℝ | ∑ k : Fin d, (X i k - X j k) * z k = 0} := by
    refine measurableSet_eq_fun ?_ measurable_const
    fun_prop
  have h0 : μ (Z m ⁻¹' {z | ∑ k : Fin d, (X i k - X j k) * z k = 0}) = 0 := by
    rw [← Measure.map_apply (hZ.measurable m) hset, hZ.law m]
    refine gauss_hyperplane (v := fun k : Fin d => X i k - X j k) ?_
    obtain ⟨k, hk, hne⟩ := hX i hi j hj hij
    exact ⟨⟨k, hk⟩, sub_ne_zero.2 hne⟩
  rw [ae_iff]
  refine measure_mono_null (fun ω hω => ?_) h0
  have hω' : ∑ k : Fin d, X i k * Z m ω k = ∑ k : Fin d, X j k * Z m ω k := by
    by_contra h
    exact hω h
  show ∑ k : Fin d, (X i k - X j k) * Z m ω k = 0
  simp only [sub_mul, Finset.sum_sub_distrib, hω', sub_self]

variable {F : Fns ℝ} {P O : Type} {ml : P → List ℝ → ℝ} {post : P → List ℝ → P}

/-- The normals evaluated keep different rows apart. -/
theorem random_apart {R : Type} {G : Rng R ℝ} {d : Nat} {z : Nat → Fin d → ℝ} (hG : Drawn G z) {A : HArith ℝ}
    (hA : Euclidean A) {q : HProb ℝ P ℝ} (hdim : q.nDim = d) (hcube : q.hypercube = false) {n m : Nat}
    (hz : ∀ m, ∀ i < n, ∀ j < n, i ≠ j → ∑ k : Fin d, q.X i k * z m k ≠ ∑ k : Fin d, q.X j k * z m k)
    {vs : List (RawVec ℝ × ℝ)} (hf : Follows (randomSolve G m q).strategy vs) {e : RawVec ℝ × ℝ} (he : e ∈ vs)
    {w : List ℝ} (hw : hNormal A q e.1 = .ok w) {i j : Nat} (hi : i < n) (hj : j < n) (hij : i ≠ j) :
    along w (q.X i) ≠ along w (q.X j) := by
  obtain ⟨l, hl⟩ := random_follows_mem hdim hG hf he
  rw [hl] at hw
  obtain ⟨-, hd⟩ := (C48_closed_direction hA hcube _ _).1 hw
  have hne := hz l i hi j hj hij
  have h0 : ∃ k, z l k ≠ 0 := by
    by_contra h
    have h' : ∀ k, z l k = 0 := fun k => by
      by_contra hk
      exact h ⟨k, hk⟩
    exact hne (by simp [h'])
  obtain ⟨r, -, hr⟩ := along_direction hd h0
  intro heq
  exact hne (by rw [hr, hr, heq])

/-- C125 for random normals: if the training rows are pairwise different points, then with probability one all
leaves of all unpruned trees fitted with `RandomHyperplaneOptimizer` are justified, for any number of draws, all targets,
priors and both target models. -/
theorem C125_random {R : Type} {d : Nat} (G : Ω → Rng R ℝ) (Z : Nat → Ω → Fin d → ℝ) (hZ : NormalDraws μ Z)
    (hG : ∀ ω, Drawn (G ω) fun i => Z i ω) (X : Nat → Nat → ℝ) (n : Nat) (hn : 0 < n)
    (hX : ∀ i < n, ∀ j < n, i ≠ j → ∃ k < d, X i k ≠ X j k) :
    ∀ᵐ ω ∂μ, ∀ (c : HCtx ℝ P ℝ O) (m : Nat) (prior : P) (t : HNode ℝ ℝ P), CodeTarget F c.T ml post →
      Euclidean c.A → c.X = X → c.nDim = d → c.opt = randomOptimizer (G ω) m → c.hp.prune = false →
      hFitRoot c (some prior) n = .ok t → ∀ addr i, nodeAt t addr = some (.leaf i) →
        let R := hRowsAt c.X t n addr
        let q := searchAt c F ml prior addr.length R
        (∀ a ∈ R, ∀ b ∈ R, c.y a = c.y b) ∨
        ∃ vs, Follows (c.opt.solve q) vs ∧ ∀ e ∈ vs, ∀ w, hNormal c.A q e.1 = .ok w →
          ∃ order, IsSweep c.X R w order ∧ ∀ k, Considered c.hp.splitPrecision c.X R w k →
            sweepScore F ml q w order k ≤ stayScore F ml c.hp c.y prior addr.length R := by
  filter_upwards [draws_apart hZ hX] with ω hω
  rintro c m prior t hT hA rfl hdim hopt hprune h addr i hu Rw q
  refine C125_apart_partial hn hT hA hprune h addr i hu ?_
  intro vs hf e he w hw
  have hsub := hRowsAt_sublist c.X t n addr
  refine (List.nodup_range.sublist hsub).imp_of_mem ?_
  intro j k hj hk hjk
  rw [hopt] at hf
  exact random_apart (q := q) (hG ω) hA hdim (by show c.opt.hypercube = false; rw [hopt]; rfl) hω hf he hw
    (List.mem_range.1 (hsub.subset hj)) (List.mem_range.1 (hsub.subset hk)) hjk

/-- C106 for rows that are pairwise different points: with probability one there is a number of draws from which on no
leaf of an unpruned tree whose rows have different targets has a position along any direction of the half sphere, except
directions along which neighbouring rows differ by exactly the precision, that scores more than not splitting. -/
theorem C106_distinct {R : Type} {d : Nat} (G : Ω → Rng R ℝ) (Z : Nat → Ω → Fin d → ℝ) (hZ : NormalDraws μ Z)
    (hG : ∀ ω, Drawn (G ω) fun i => Z i ω) (X : Nat → Nat → ℝ) (n : Nat) (hn : 0 < n)
    (hX : ∀ i < n, ∀ j < n, i ≠ j → ∃ k < d, X i k ≠ X j k) :
    ∀ᵐ ω ∂μ, ∀ prec : ℝ,
      ∃ N, ∀ (c : HCtx ℝ P ℝ O) (m : Nat) (prior : P) (t : HNode ℝ ℝ P), N ≤ m → CodeTarget F c.T ml post →
        Euclidean c.A → c.X = X → c.hp.splitPrecision = prec → c.nDim = d → c.opt = randomOptimizer (G ω) m →
        c.hp.prune = false → hFitRoot c (some prior) n = .ok t → ∀ addr i, nodeAt t addr = some (.leaf i) →
          (∀ a ∈ hRowsAt c.X t n addr, ∀ b ∈ hRowsAt c.X t n addr, c.y a = c.y b) ∨
          NoneBetter F ml (searchAt c F ml prior addr.length (hRowsAt c.X t n addr))
            (stayScore F ml c.hp c.y prior addr.length (hRowsAt c.X t n addr)) := by
  filter_upwards [draws_apart hZ hX, draws_dense hZ] with ω hω hd prec
  obtain ⟨N, hN⟩ := random_search (F := F) (P := P) (O := O) (ml := ml) (post := post) hd prec X n
  refine ⟨N, ?_⟩
  rintro c m prior t hm hT hA rfl rfl hdim hopt hprune h addr i hu
  have hcube : (searchAt c F ml prior addr.length (hRowsAt c.X t n addr)).hypercube = false := by
    show c.opt.hypercube = false
    rw [hopt]
    rfl
  have hsub := hRowsAt_sublist c.X t n addr
  rcases leaf_search hn hT hA hprune h addr i hu with h1 | ⟨vs, st, hf, hse, h1⟩
  · exact Or.inl h1
  rw [hopt] at hf
  rcases h1 with h1 | ⟨e, he, sp, hw, -, -, -, j, hj, k, hk, hjk, e1, e2⟩
  · right
    rw [h1]
    exact hN _ (G ω) c.T _ c.A vs st m hm (hG ω) hT hA rfl rfl hdim hcube hsub hf hse
  · exact absurd (on_plane_eq e1 e2) (random_apart (q := searchAt c F ml prior addr.length (hRowsAt c.X t n addr))
      (hG ω) hA hdim hcube hω hf he hw (List.mem_range.1 (hsub.subset hj)) (List.mem_range.1 (hsub.subset hk)) hjk)

end

/-- The six points of `C125_refuted` are different: almost all generators give a fit whose leaves are justified. -/
example {Ω : Type} [MeasurableSpace Ω] (μ : Measure Ω) (Z : Nat → Ω → Fin 2 → ℝ) (hZ : NormalDraws μ Z) (hp : Hyper ℝ)
    (hpr : hp.prune = false) (p : NG ℝ) :
    ∀ᵐ ω ∂μ, ∃ N t, ∃ c : HCtx ℝ (NG ℝ) ℝ ℝ, c.X = (hLostReal hLostUp).X ∧ c.y = (hLostReal hLostUp).y ∧ c.nDim = 2 ∧
      c.opt = randomOptimizer (tapeRng fun i => Z i ω) N ∧ hFitRoot c (some p) 6 = .ok t ∧
      ∀ addr i, nodeAt t addr = some (.leaf i) →
        (∀ a ∈ hRowsAt c.X t 6 addr, ∀ b ∈ hRowsAt c.X t 6 addr, c.y a = c.y b) ∨
        NoneBetter realFns (Spec.ngMarginal realFns) (searchAt c realFns (Spec.ngMarginal realFns) p addr.length
          (hRowsAt c.X t 6 addr)) (stayScore realFns (Spec.ngMarginal realFns) c.hp c.y p addr.length (hRowsAt c.X t 6 addr)) := by
  filter_upwards [C106_distinct (F := realFns) (P := NG ℝ) (O := ℝ) (ml := Spec.ngMarginal realFns)
    (post := Spec.ngPosterior) (fun ω => tapeRng fun i => Z i ω) Z hZ (fun ω => tapeRng_drawn _)
    (hLostReal hLostUp).X 6 (by decide) (by
      intro i hi j hj hij
      refine ⟨1, by decide, ?_⟩
      interval_cases i <;> interval_cases j <;> simp [hLostReal, castHCtx, hLostCtx] at hij ⊢)] with ω hω
  obtain ⟨N, hN⟩ := hω hp.splitPrecision
  let c : HCtx ℝ (NG ℝ) ℝ ℝ := ⟨exactArith (insArgsort (exactOps ℝ).le), regTarget realFns, hp,
    randomOptimizer (tapeRng fun i => Z i ω) N, 0, (hLostReal hLostUp).X, (hLostReal hLostUp).y, 2⟩
  obtain ⟨B, t, ht⟩ := C67_random (pair := regPair realFns) c (some p) 6 (reg_lawful realFns) realSort_spec Nat.two_pos
    (tapeRng fun i => Z i ω) (tapeRng_lawful _) N
  refine ⟨N, t, withOpt c (randomOptimizer (tapeRng fun i => Z i ω) N) B, rfl, rfl, rfl, rfl, ht B le_rfl, ?_⟩
  exact hN _ N p t le_rfl .regression exactArith_euclidean rfl rfl rfl rfl hpr (ht B le_rfl)

end BT
