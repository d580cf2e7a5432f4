import Verif.Props.Optimize
import Verif.Props.HyperClosed

/-!
# The wrappers around scipy and optuna, and data with a single feature: C102

The default optimizer of hyperplane trees is scipy's differential evolution.  The third-party search is
arbitrary here; the only assumption is that it evaluates points within the bounds it is given.
-/

set_option linter.unusedSectionVars false

namespace BT
open Spec

/-! ## What is expected of the third-party code -/

/-- `u` lies in the box given by the pairs of bounds. -/
def Spec.InBox {K : Type} [LE K] (bounds : List (K × K)) (u : List K) : Prop :=
  u.length = bounds.length ∧ ∀ (i : Nat) (a : K) (b : K × K), u[i]? = some a → bounds[i]? = some b → b.1 ≤ a ∧ a ≤ b.2

/-- A search that evaluates float vectors within its bounds only and raises nothing, whatever values it is
told. -/
def Spec.HonoursBounds {K S α : Type} [LE K] : List (K × K) → Prog K S α → Prop
  | _, .ret _ => True
  | _, .raise _ => False
  | b, .eval r k => (∃ u : List K, r = ⟨false, u.map XF.fin⟩ ∧ InBox b u) ∧ ∀ v, HonoursBounds b (k v)

/-- The search respects bounds that are the unit cube, in every dimension. -/
def Spec.RespectsCube {K S α : Type} [LE K] [Zero K] [One K] (solver : List (K × K) → Prog K S α) : Prop :=
  ∀ m, HonoursBounds (List.replicate m (0, 1)) (solver (List.replicate m (0, 1)))

/-- A sampler that suggests numbers between 0 and 1. -/
def Spec.Suggests01 {K S : Type} [LE K] [Zero K] [One K] (suggest : List (List K × S) → List K → K) : Prop :=
  ∀ trials u, 0 ≤ suggest trials u ∧ suggest trials u ≤ 1

section
variable {K P S R α : Type} [Field K] [LinearOrder K]

theorem inBox_unit {m : Nat} {u : List K} (h : InBox (List.replicate m ((0 : K), (1 : K))) u) :
    CubePoint m u := by
  refine ⟨by simpa using h.1, fun a ha => ?_⟩
  obtain ⟨i, hi, rfl⟩ := List.mem_iff_getElem.1 ha
  have hl : u.length = m := by simpa using h.1
  exact h.2 i _ (0, 1) (List.getElem?_eq_getElem hi) (by
    rw [List.getElem?_replicate, if_pos (by omega)])

theorem optunaPoint_spec {suggest : List K → K} (h : ∀ u, 0 ≤ suggest u ∧ suggest u ≤ 1) (n : Nat)
    (u : List K) (hu : ∀ a ∈ u, 0 ≤ a ∧ a ≤ 1) :
    (optunaPoint suggest n u).length = u.length + n ∧ ∀ a ∈ optunaPoint suggest n u, 0 ≤ a ∧ a ≤ 1 := by
  induction n generalizing u with
  | zero => exact ⟨rfl, hu⟩
  | succ n ih =>
    have := ih (u ++ [suggest u]) (by
      intro a ha
      rcases List.mem_append.1 ha with ha | ha
      · exact hu a ha
      · rw [List.mem_singleton] at ha
        rw [ha]; exact h u)
    refine ⟨?_, this.2⟩
    have e := this.1
    rw [List.length_append, List.length_singleton] at e
    show (optunaPoint suggest n (u ++ [suggest u])).length = _
    omega

/-- The scipy wrapper evaluates points of the unit cube of dimension `n_dim - 1` only. -/
theorem scipy_sat {solver : List (K × K) → Prog K S α} {q : HProb K P S}
    (h : HonoursBounds (List.replicate (q.nDim - 1) ((0 : K), (1 : K))) (solver (List.replicate (q.nDim - 1) (0, 1))))
    (hdim : 0 < q.nDim) :
    (scipySolve solver q).Sat (CubeVec (q.nDim - 1)) (fun _ _ => True) (fun _ => False) (fun _ => True) := by
  unfold scipySolve
  rw [if_neg (by omega)]
  generalize solver (List.replicate (q.nDim - 1) (0, 1)) = p at h
  induction p with
  | ret a => trivial
  | raise e => exact h
  | eval r k ih =>
    obtain ⟨⟨u, hu, hb⟩, hk⟩ := h
    exact ⟨⟨u, hu, inBox_unit hb⟩, fun v _ => ih v (hk v)⟩

/-- C102: the optuna wrapper evaluates points of the unit cube of dimension `n_dim - 1` only. -/
theorem optuna_sat {suggest : List (List K × S) → List K → K} (h : Suggests01 suggest) (nTrials : Nat)
    {q : HProb K P S} (hdim : 0 < q.nDim) :
    (optunaSolve suggest nTrials q).Sat (CubeVec (q.nDim - 1)) (fun _ _ => True) (fun _ => False)
      (fun _ => True) := by
  unfold optunaSolve
  refine Prog.sat_loop (I := fun _ => True) (fun trials _ x _ => ?_) trivial
  simp only [if_neg (show ¬ q.nDim = 0 by omega)]
  obtain ⟨h1, h2⟩ := optunaPoint_spec (h trials) (q.nDim - 1) [] (by simp)
  exact ⟨⟨_, rfl, by simpa using h1, h2⟩, fun _ _ => trivial⟩

end

/-! ## Two or more features -/

section
variable {P S O R α : Type} [LinearOrder S] [Neg S] {T : Target ℝ P S O} {pair : PairScore ℝ P S}
variable {argsort : List ℝ → List Nat}

/-- C102: with at least two features, the scipy wrapper around any search that respects its bounds ends
properly. -/
theorem C102_scipy_solve (solver : List (ℝ × ℝ) → Prog ℝ S α) (hsolver : RespectsCube solver)
    (q : HProb ℝ P S) (hT : LawfulTarget T pair) (hs : IsArgsort (exactOps ℝ).le (fun _ => True) argsort)
    (hcube : q.hypercube = true) (hdim : 2 ≤ q.nDim) (st0 : HState S ℝ) :
    ∃ B st, ∀ b, B ≤ b → hSolve (exactArith argsort) T q (scipySolve solver q).strategy b [] st0 = .ok st := by
  obtain ⟨st, a, h⟩ := run_ends (A := exactArith argsort) (T := T) (q := q) hT hs
    (Prog.sat_values (scipy_sat (hsolver _) (by omega))) (hNormal_cube argsort hcube hdim) st0
  obtain ⟨B, hB⟩ := hSolve_prog (scipySolve solver q) st0 (by rw [h]; intro hh; cases hh)
  exact ⟨B, st, fun b hb => by rw [hB b hb, h]; rfl⟩

/-- C102: with at least two features, optuna's search evaluates exactly `n_trials` points. -/
theorem C102_optuna_solve (suggest : List (List ℝ × S) → List ℝ → ℝ) (hsuggest : Suggests01 suggest)
    (nTrials : Nat) (q : HProb ℝ P S) (hT : LawfulTarget T pair)
    (hs : IsArgsort (exactOps ℝ).le (fun _ => True) argsort)
    (hcube : q.hypercube = true) (hdim : 2 ≤ q.nDim) (st0 : HState S ℝ) :
    ∃ st, st.evals = st0.evals + nTrials ∧ ∃ B, ∀ b, B ≤ b →
      hSolve (exactArith argsort) T q (optunaSolve suggest nTrials q).strategy b [] st0 = .ok st := by
  obtain ⟨st, a, h⟩ := run_ends (A := exactArith argsort) (T := T) (q := q) hT hs
    (Prog.sat_values (optuna_sat hsuggest nTrials (by omega))) (hNormal_cube argsort hcube hdim) st0
  refine ⟨st, ?_, ?_⟩
  · have := run_loop_evals (A := exactArith argsort) hT hs (fun trials x => .inl (by
      simp only [if_neg (show ¬ q.nDim = 0 by omega)]
      exact ⟨_, _, rfl⟩)) (List.range nTrials) _ h
    rwa [List.length_range] at this
  · obtain ⟨B, hB⟩ := hSolve_prog (optunaSolve suggest nTrials q) st0 (by rw [h]; intro hh; cases hh)
    exact ⟨B, fun b hb => by rw [hB b hb, h]; rfl⟩

variable (c : HCtx ℝ P S O) (prior : Option P) (n : Nat)

/-- C102: a fit with the default kind of optimizer — scipy around a search that respects its bounds —
yields a tree, for every data set with two or more features. -/
theorem C102_scipy (hT : LawfulTarget c.T pair) (hA : c.A = exactArith argsort)
    (hs : IsArgsort (exactOps ℝ).le (fun _ => True) argsort) (hdim : 2 ≤ c.nDim)
    (solver : List (ℝ × ℝ) → Prog ℝ S α) (hsolver : RespectsCube solver) :
    ∃ B t, ∀ b, B ≤ b → hFitRoot (withOpt c (scipyOptimizer solver) b) prior n = .ok t :=
  hFitRoot_family c (fun _ => scipyOptimizer solver) true (fun _ => rfl) prior n
    fun pr lv R _ => by
      rw [hA]
      exact C102_scipy_solve solver hsolver _ hT hs rfl hdim _

/-- C102: the same with optuna. -/
theorem C102_optuna (hT : LawfulTarget c.T pair) (hA : c.A = exactArith argsort)
    (hs : IsArgsort (exactOps ℝ).le (fun _ => True) argsort) (hdim : 2 ≤ c.nDim)
    (suggest : List (List ℝ × S) → List ℝ → ℝ) (hsuggest : Suggests01 suggest) (nTrials : Nat) :
    ∃ B t, ∀ b, B ≤ b → hFitRoot (withOpt c (optunaOptimizer suggest nTrials) b) prior n = .ok t :=
  hFitRoot_family c (fun _ => optunaOptimizer suggest nTrials) true (fun _ => rfl) prior n
    fun pr lv R _ => by
      rw [hA]
      obtain ⟨st, -, B, hB⟩ := C102_optuna_solve (argsort := argsort) suggest hsuggest nTrials
        (hProblem (withOpt c (optunaOptimizer suggest nTrials) 0) pr lv R) hT hs rfl hdim (hInit _)
      exact ⟨B, st, hB⟩

/-! ## Points outside the cube, and a single feature -/

/-- What `compute` does with a point when the search space is the cube and it is not accepted. -/
theorem hNormal_cube_error (q : HProb ℝ P S) (argsort : List ℝ → List Nat) (hcube : q.hypercube = true)
    (r : RawVec ℝ) :
    (¬ InCube r.v → hNormal (exactArith argsort) q r = .error .assertionError) ∧
    (r.v = [] → hNormal (exactArith argsort) q r = .error .axisError) ∧
    (InCube r.v → r.v ≠ [] → r.v.length + 1 ≠ q.nDim → hNormal (exactArith argsort) q r = .error .valueError) := by
  have hsp : (exactArith argsort).sphere r.v = (hypersphere r.v true).map fun x => x.map XF.fin := rfl
  refine ⟨fun h => ?_, fun h => ?_, fun h1 h2 h3 => ?_⟩
  · unfold hNormal
    simp only [hcube, if_true, hsp, C55_rejects r.v true h, Except.map]
  · unfold hNormal
    rw [h, C55_no_dimension.1] at hsp
    simp only [hcube, if_true, h, hsp, Except.map]
  · obtain ⟨x, hx, hl, hu, -⟩ := C55_on_sphere r.v true (List.length_pos_of_ne_nil h2) h1
    unfold hNormal
    simp only [hcube, if_true, hsp, hx, Except.map]
    have hne : (x.map XF.fin).map (nanToNum (exactArith argsort).big) ≠ [] := by
      intro h
      simp only [List.map_eq_nil_iff] at h
      rw [h] at hl
      simp at hl
    unfold normalizeVec
    simp only [if_neg hne, Bool.false_eq_true, if_false]
    rw [if_pos]
    intro h
    apply h3
    rw [← h, List.length_map]
    split
    · simp [hl]
    · simp [hl]

/-- C102: a search that leaves the cube makes `fit` fail with `AssertionError`. -/
theorem C102_outside (q : HProb ℝ P S) (hcube : q.hypercube = true) (strat : Strategy ℝ S) (b : Nat)
    (hist : List (RawVec ℝ × S)) (st : HState S ℝ) (r : RawVec ℝ) (hr : strat hist = .eval r)
    (hout : ¬ ∀ x ∈ r.v, ∃ u : ℝ, x = .fin u ∧ 0 ≤ u ∧ u ≤ 1) :
    hSolve (exactArith argsort) T q strat (b + 1) hist st = .error .assertionError := by
  rw [hSolve]
  simp only [hr, hCompute, (hNormal_cube_error q argsort hcube r).1 hout]

/-- With a single feature `compute` accepts no vector at all. -/
theorem hNormal_one_feature (q : HProb ℝ P S) (argsort : List ℝ → List Nat) (hcube : q.hypercube = true)
    (hdim : q.nDim = 1) (r : RawVec ℝ) :
    ∃ e, hNormal (exactArith argsort) q r = .error e ∧ (r.v = [] → e = .axisError) := by
  obtain ⟨h1, h2, h3⟩ := hNormal_cube_error q argsort hcube r
  by_cases hr : r.v = []
  · exact ⟨_, h2 hr, fun _ => rfl⟩
  · by_cases hc : InCube r.v
    · exact ⟨_, h3 hc hr (by
        have := List.length_pos_of_ne_nil hr
        omega), fun h => absurd h hr⟩
    · exact ⟨_, h1 hc, fun h => absurd h hr⟩

/-- C102: on data with a single feature no optimizer that searches the cube — the default one among them —
ever finds a split: a fit either fails or returns a single leaf. -/
theorem C102_one_feature (hA : c.A = exactArith argsort) (hcube : c.opt.hypercube = true)
    (hdim : c.nDim = 1) (t : HNode S ℝ P) (ht : hFitRoot c prior n = .ok t) : ∃ info, t = .leaf info := by
  have key : ∀ t, hFit c (n + 1) prior 0 (List.range n) = .ok t → ∃ info, t = .leaf info := by
    intro t ht
    rw [hFit] at ht
    simp only at ht
    generalize hq : hProblem c (c.T.getPrior prior (List.range n).length c.nDim) 0 (List.range n) = q at ht
    have hqc : q.hypercube = true := by rw [← hq]; exact hcube
    have hqd : q.nDim = 1 := by rw [← hq]; exact hdim
    cases hb : c.budget with
    | zero =>
      rw [hb, hSolve] at ht
      cases ht
    | succ b =>
      rw [hb, hSolve] at ht
      cases hstep : c.opt.solve q [] with
      | stop =>
        simp only [hstep, hInit] at ht
        cases ht
        exact ⟨_, rfl⟩
      | raise e =>
        simp only [hstep] at ht
        cases ht
      | eval r =>
        obtain ⟨e, he, -⟩ := hNormal_one_feature q argsort hqc hqd r
        simp only [hstep, hCompute, hA, he] at ht
        cases ht
  unfold hFitRoot at ht
  cases h : hFit c (n + 1) prior 0 (List.range n) with
  | error e => rw [h] at ht; cases ht
  | ok t' =>
    obtain ⟨info, rfl⟩ := key t' h
    rw [h] at ht
    simp only at ht
    split at ht
    · have : prune c.T.predictLeaf (Node.leaf info : HNode S ℝ P) = .ok (.leaf info) := by
        unfold prune
        simp [pruneFuel, Node.size]
      rw [this] at ht
      cases ht
      exact ⟨_, rfl⟩
    · cases ht
      exact ⟨_, rfl⟩

/-- C102: it fails as soon as the optimizer evaluates anything: with `AxisError` if it passes the point of
the cube of dimension 0. -/
theorem C102_one_feature_fails (hA : c.A = exactArith argsort) (hcube : c.opt.hypercube = true)
    (hdim : c.nDim = 1) (hb : 0 < c.budget) (r : RawVec ℝ)
    (hr : c.opt.solve (hProblem c (c.T.getPrior prior n c.nDim) 0 (List.range n)) [] = .eval r) :
    (∃ e, hFitRoot c prior n = .error e) ∧ (r.v = [] → hFitRoot c prior n = .error .axisError) := by
  obtain ⟨e, he, he'⟩ := hNormal_one_feature (hProblem c (c.T.getPrior prior n c.nDim) 0 (List.range n)) argsort
    hcube hdim r
  have key : hFitRoot c prior n = .error e := by
    unfold hFitRoot
    rw [hFit]
    simp only [List.length_range]
    obtain ⟨b, hb⟩ : ∃ b, c.budget = b + 1 := ⟨c.budget - 1, by omega⟩
    rw [hb, hSolve]
    simp only [hr, hCompute, hA, he]
  exact ⟨⟨e, key⟩, fun h => by rw [key, he' h]⟩

/-- C102: scipy's search — the default — on a single feature: if it evaluates anything within its (empty)
bounds, `fit` raises `AxisError`. -/
theorem C102_scipy_one (hA : c.A = exactArith argsort) (hdim : c.nDim = 1)
    (solver : List (ℝ × ℝ) → Prog ℝ S α) (hsolver : RespectsCube solver)
    (heval : ∀ a, solver [] ≠ .ret a) (b : Nat) (hb : 0 < b) :
    hFitRoot (withOpt c (scipyOptimizer solver) b) prior n = .error .axisError := by
  have hh := hsolver 0
  rw [List.replicate_zero] at hh
  cases hs : solver [] with
  | ret a => exact absurd hs (heval a)
  | raise e => rw [hs] at hh; exact hh.elim
  | eval r k =>
    rw [hs] at hh
    obtain ⟨⟨u, rfl, hu⟩, -⟩ := hh
    refine (C102_one_feature_fails (withOpt c (scipyOptimizer solver) b) prior n (argsort := argsort) hA rfl hdim hb
      ⟨false, u.map XF.fin⟩ ?_).2 ?_
    · show (scipySolve solver _).resume _ = _
      unfold scipySolve
      rw [if_neg (by show ¬ c.nDim = 0; omega)]
      have e : (hProblem (withOpt c (scipyOptimizer solver) b)
          (c.T.getPrior prior n c.nDim) 0 (List.range n)).nDim - 1 = 0 := by
        show c.nDim - 1 = 0
        omega
      show (solver (List.replicate ((hProblem (withOpt c (scipyOptimizer solver) b)
          (c.T.getPrior prior n c.nDim) 0 (List.range n)).nDim - 1) (0, 1))).resume _ = _
      rw [e, List.replicate_zero, hs]
      rfl
    · have : u.length = 0 := hu.1
      rw [List.length_eq_zero_iff] at this
      rw [this]; rfl

/-- C102: the same with optuna, unless `n_trials = 0`. -/
theorem C102_optuna_one (hA : c.A = exactArith argsort) (hdim : c.nDim = 1)
    (suggest : List (List ℝ × S) → List ℝ → ℝ) (nTrials : Nat) (htr : 0 < nTrials) (b : Nat) (hb : 0 < b) :
    hFitRoot (withOpt c (optunaOptimizer suggest nTrials) b) prior n = .error .axisError := by
  refine (C102_one_feature_fails (withOpt c (optunaOptimizer suggest nTrials) b) prior n (argsort := argsort) hA rfl
    hdim hb ⟨false, []⟩ ?_).2 rfl
  obtain ⟨m, rfl⟩ : ∃ m, nTrials = m + 1 := ⟨nTrials - 1, by omega⟩
  show (optunaSolve suggest (m + 1) _).resume _ = _
  unfold optunaSolve
  rw [List.range_succ_eq_map]
  have h0 : (hProblem (withOpt c (optunaOptimizer suggest (m + 1)) b)
      ((withOpt c (optunaOptimizer suggest (m + 1)) b).T.getPrior prior n (withOpt c (optunaOptimizer suggest (m + 1)) b).nDim) 0
      (List.range n)).nDim = 1 := hdim
  unfold Prog.loop
  simp only [h0]
  rfl

/-- C102: the same with simulated annealing, `n_scan ≥ 1`. -/
theorem C102_annealing_one (hA : c.A = exactArith argsort) (hdim : c.nDim = 1) (G : Rng R ℝ)
    (hG : LawfulRng G) (nScan nKeep : Nat) (spread : ℝ) (hscan : 0 < nScan) (fuel b : Nat) (hf : 0 < fuel)
    (hb : 0 < b) :
    hFitRoot (withOpt c (saOptimizer G nScan nKeep spread fuel) b) prior n = .error .axisError := by
  obtain ⟨m, rfl⟩ : ∃ m, nScan = m + 1 := ⟨nScan - 1, by omega⟩
  obtain ⟨f, rfl⟩ : ∃ f, fuel = f + 1 := ⟨fuel - 1, by omega⟩
  refine (C102_one_feature_fails (withOpt c (saOptimizer G (m + 1) nKeep spread (f + 1)) b) prior n (argsort := argsort) hA
    rfl hdim hb (fvec (G.uniform 0 1 0 G.init).1) ?_).2 ?_
  · show (saSolve G (m + 1) nKeep spread (f + 1) _).resume _ = _
    generalize hq : hProblem (withOpt c (saOptimizer G (m + 1) nKeep spread (f + 1)) b)
      ((withOpt c (saOptimizer G (m + 1) nKeep spread (f + 1)) b).T.getPrior prior n
        (withOpt c (saOptimizer G (m + 1) nKeep spread (f + 1)) b).nDim) 0 (List.range n) = q
    have h0 : q.nDim = 1 := by rw [← hq]; exact hdim
    unfold saSolve saLoop saRound scan
    rw [if_pos (show (0 : Nat) < 50 by decide), List.range_succ_eq_map]
    unfold Prog.loop
    simp only [h0, List.length_nil, if_true]
    rfl
  · have := hG.uniform_length 0 1 0 G.init
    simp only [fvec, List.map_eq_nil_iff]
    exact List.length_eq_zero_iff.1 this

/-- C102: the same with gradient descent, `n_init ≥ 1`. -/
theorem C102_descent_one (c : HCtx ℝ P ℝ O) (hA : c.A = exactArith argsort) (hdim : c.nDim = 1) (G : Rng R ℝ)
    (hG : LawfulRng G) (nInit nKeep : Nat) (hinit : 0 < nInit) (fuel b : Nat) (hf : 0 < fuel) (hb : 0 < b) :
    hFitRoot (withOpt c (gdOptimizer G nInit nKeep fuel) b) prior n = .error .axisError := by
  obtain ⟨m, rfl⟩ : ∃ m, nInit = m + 1 := ⟨nInit - 1, by omega⟩
  obtain ⟨f, rfl⟩ : ∃ f, fuel = f + 1 := ⟨fuel - 1, by omega⟩
  refine (C102_one_feature_fails (withOpt c (gdOptimizer G (m + 1) nKeep (f + 1)) b) prior n (argsort := argsort) hA
    rfl hdim hb (fvec (G.uniform 0 1 0 G.init).1) ?_).2 ?_
  · show (gdSolve G (m + 1) nKeep (f + 1) _).resume _ = _
    generalize hq : hProblem (withOpt c (gdOptimizer G (m + 1) nKeep (f + 1)) b)
      ((withOpt c (gdOptimizer G (m + 1) nKeep (f + 1)) b).T.getPrior prior n
        (withOpt c (gdOptimizer G (m + 1) nKeep (f + 1)) b).nDim) 0 (List.range n) = q
    have h0 : q.nDim = 1 := by rw [← hq]; exact hdim
    unfold gdSolve gdLoop gdRound scan
    rw [if_pos (show (0 : Nat) < 3 by decide), List.range_succ_eq_map]
    unfold Prog.loop
    simp only [h0, List.length_nil, if_true]
    rfl
  · have := hG.uniform_length 0 1 0 G.init
    simp only [fvec, List.map_eq_nil_iff]
    exact List.length_eq_zero_iff.1 this

end

/-! ## The hypotheses are satisfiable -/

/-- A search that tries the lower corner of its box and then the upper one or the lower one again,
depending on the value returned. -/
noncomputable def cornerSolver (b : List (ℝ × ℝ)) : Prog ℝ ℝ Unit :=
  .eval (fvec (b.map Prod.fst)) fun v =>
    .eval (fvec (b.map (if 0 < v then Prod.snd else Prod.fst))) fun _ => .ret ()

theorem cornerSolver_respects : RespectsCube cornerSolver := by
  intro m
  have h0 : ∀ x : ℝ, 0 ≤ x ∧ x ≤ 1 → InBox (List.replicate m ((0 : ℝ), (1 : ℝ))) (List.replicate m x) := by
    intro x hx
    refine ⟨by simp, fun i a b ha hb => ?_⟩
    rw [List.getElem?_replicate] at ha hb
    split at ha
    · next h =>
      rw [if_pos h] at hb
      cases ha; cases hb
      exact hx
    · cases ha
  refine ⟨⟨List.replicate m 0, by simp [fvec], h0 0 (by norm_num)⟩, fun v => ⟨?_, fun _ => trivial⟩⟩
  by_cases hv : 0 < v
  · exact ⟨List.replicate m 1, by simp [fvec, hv], h0 1 (by norm_num)⟩
  · exact ⟨List.replicate m 0, by simp [fvec, hv], h0 0 (by norm_num)⟩

example : ∃ B t, ∀ b, B ≤ b → hFitRoot (withOpt hSampleExact (scipyOptimizer cornerSolver) b) (some [1, 1]) 9 = .ok t :=
  C102_scipy (pair := clsPair realFns) hSampleExact _ 9 (cls_lawful realFns) rfl realSort_spec (by decide)
    cornerSolver cornerSolver_respects

/-- A sampler that looks at the history. -/
noncomputable def someSampler (trials : List (List ℝ × ℝ)) (u : List ℝ) : ℝ :=
  if trials.length ≤ u.length then 1 / 3 else 1

theorem someSampler_01 : Suggests01 someSampler := by
  intro trials u
  unfold someSampler
  split <;> norm_num

example : ∃ B t, ∀ b, B ≤ b → hFitRoot (withOpt hSampleExact (optunaOptimizer someSampler 5) b) (some [1, 1]) 9 = .ok t :=
  C102_optuna (pair := clsPair realFns) hSampleExact _ 9 (cls_lawful realFns) rfl realSort_spec (by decide)
    someSampler someSampler_01 5

/-- The first feature of the sample alone: the default optimizer fails. -/
example (b : Nat) (hb : 0 < b) :
    hFitRoot (withOpt { hSampleExact with nDim := 1 } (scipyOptimizer cornerSolver) b) (some [1, 1]) 9 =
      .error .axisError :=
  C102_scipy_one { hSampleExact with nDim := 1 } (some [1, 1]) 9 (argsort := insArgsort (exactOps ℝ).le) rfl rfl
    cornerSolver cornerSolver_respects (fun a h => by cases h) b hb

/-- Random normals have no such problem: they yield a tree on the same data. -/
example : ∃ B t, ∀ b, B ≤ b →
    hFitRoot (withOpt { hSampleExact with nDim := 1 } (randomOptimizer (counterRng ℝ) 7) b) (some [1, 1]) 9 = .ok t :=
  C67_random (pair := clsPair realFns) { hSampleExact with nDim := 1 } _ 9 (cls_lawful realFns) realSort_spec
    (by decide) (counterRng ℝ) counterRng_lawful 7

end BT
