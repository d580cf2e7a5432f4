import Verif.Lemmas.Image
import Verif.Props.Closed
import Verif.Props.Equivariance
import Verif.Props.Regression
import Verif.Spec.Evidence

/-!
# C77-C79: rescaled targets, monotone feature transformations, permuted feature columns
-/

namespace BT
open Spec

set_option linter.unusedSectionVars false

section
variable {K P P' : Type} [Field K] [LinearOrder K] [IsStrictOrderedRing K] {ok : K → Prop} {hp' : Hyper K} {nD : Nat}
  {τ : Nat → Nat} {fV : Nat → K → K} {fP : P → P'} {fS : Nat → K → K} {t : PNode K K K P} {t' : PNode K K K P'}

/-- Splits of the corresponding tree. -/
theorem image_splitAt (hi : Image (exactOps K) (exactOps K) ok hp' nD τ fV fP fS t t') (addr : List Bool) :
    match splitAt t addr with
    | none => splitAt t' addr = none
    | some sp => sp.dim < nD ∧ ∃ a b : K, a ≤ b ∧ sp.value = (a + b) / 2 ∧
        splitAt t' addr = some ⟨τ sp.dim, sp.name, (fV sp.dim a + fV sp.dim b) / 2⟩ := by
  induction hi generalizing addr with
  | leaf i => rfl
  | split i d name a b l s c1 c2 c1' c2' hd oka okb hle h1 h2 ih1 ih2 =>
    cases addr with
    | nil =>
      refine ⟨hd, a, b, by simpa [exactOps] using hle, ?_, ?_⟩
      · show (1 / 2) * (a + b) = _; ring
      · show some (⟨τ d, name, (1 / 2) * (fV d a + fV d b)⟩ : PSplit K) = _
        congr 2; ring
    | cons q bs => cases q <;> simpa [splitAt] using (by first | exact ih1 bs | exact ih2 bs)

/-- If values are kept, corresponding queries end in corresponding leaves. -/
theorem image_descend (hi : Image (exactOps K) (exactOps K) ok hp' nD τ (fun _ => id) fP fS t t')
    (x x' : Nat → K) (hx : ∀ d < nD, x' (τ d) = x d) : descend t' x' = imageInfo hp' fP (descend t x) := by
  induction hi with
  | leaf i => rfl
  | split i d name a b l s c1 c2 c1' c2' hd oka okb hle h1 h2 ih1 ih2 =>
    simp only [descend, hx d hd, id, ih1, ih2]
    split <;> rfl

/-- If gains are kept and features keep their numbers, importances are kept. -/
theorem image_importance (hi : Image (exactOps K) (exactOps K) ok hp' nD id fV fP fS t t')
    (hg : ∀ k a b, fS k a - fS k b = a - b) (w : List K) : perpUpdateImportance t' w = perpUpdateImportance t w := by
  induction hi generalizing w with
  | leaf i => rfl
  | split i d name a b l s c1 c2 c1' c2' hd oka okb hle h1 h2 ih1 ih2 =>
    simp only [perpUpdateImportance, ih1, ih2, hg, id]

theorem predict_ext {S O O' : Type} {S' : Type} {T : Target K P S O} {T' : Target K P' S' O'} {t : PNode K S K P}
    {t' : PNode K S' K P'} {X X' : Nat → Nat → K} {m : Nat} (f : K → K)
    (h : ∀ i < m, T'.predictLeaf (descend t' (X' i)).posterior = f (T.predictLeaf (descend t (X i)).posterior)) :
    predict (perpRouter (exactOps K)) T' t' X' m = (predict (perpRouter (exactOps K)) T t X m).map f := by
  apply List.ext_getElem?
  intro i
  rw [List.getElem?_map]
  by_cases hi : i < m
  · rw [C01_predict_descends _ _ _ _ _ hi, C01_predict_descends _ _ _ _ _ hi, Option.map_some, h i hi]
  · rw [List.getElem?_eq_none (by unfold predict; rw [predictRows_length]; omega),
      List.getElem?_eq_none (by unfold predict; rw [predictRows_length]; omega)]
    rfl

end

/-! ## C77: rescaled regression targets -/

/-- The prior for targets multiplied by `s`. -/
def NG.scale (s : ℝ) (p : NG ℝ) : NG ℝ := { p with mu := s * p.mu, beta := s ^ 2 * p.beta }

theorem sum_scale (s : ℝ) (ys : List ℝ) : (ys.map (s * ·)).sum = s * ys.sum := by
  induction ys with
  | nil => simp
  | cons a l ih => simp only [List.map_cons, List.sum_cons, ih]; ring

theorem sumSq_scale (s : ℝ) (ys : List ℝ) :
    ((ys.map (s * ·)).map fun v => v ^ 2).sum = s ^ 2 * (ys.map fun v => v ^ 2).sum := by
  induction ys with
  | nil => simp
  | cons a l ih => simp only [List.map_cons, List.sum_cons, ih]; ring

theorem regPosterior_scale (s : ℝ) (p : NG ℝ) (ys : List ℝ) (δ : ℝ) :
    regPosterior (ys.map (s * ·)) (p.scale s) δ = (regPosterior ys p δ).scale s := by
  unfold regPosterior
  split
  · rfl
  · rw [sum_scale, sumSq_scale, List.length_map]
    unfold BT.ngPosterior NG.scale
    simp only [NG.mk.injEq, true_and]
    constructor <;> ring

theorem regPosterior_proper {p : NG ℝ} (hp : ProperNG p) (ys : List ℝ) (δ : ℝ) (hδ : 0 ≤ δ) (hne : ys ≠ []) :
    ProperNG (regPosterior ys p δ) := by
  unfold regPosterior
  split
  · exact hp
  · exact ngPosterior_proper p ys δ hδ hp hne

theorem ngMarginal_scale {s : ℝ} (hs : s ≠ 0) {p : NG ℝ} (hp : ProperNG p) (ys : List ℝ) (hys : ys ≠ []) :
    ngMarginal realFns (p.scale s) (ys.map (s * ·)) = ngMarginal realFns p ys - ys.length * Real.log |s| := by
  have h1 := regPosterior_scale s p ys 1
  rw [regPosterior_one _ _ hys, regPosterior_one _ _ (by simpa using hys)] at h1
  have hq : ProperNG (Spec.ngPosterior p ys) := by
    rw [← regPosterior_one _ _ hys]; exact regPosterior_proper hp ys 1 zero_le_one hys
  have hl : ∀ b : ℝ, 0 < b → Real.log (s ^ 2 * b) = 2 * Real.log |s| + Real.log b := by
    intro b hb
    rw [Real.log_mul (pow_ne_zero 2 hs) hb.ne', Real.log_pow, Real.log_abs]
    norm_num
  unfold ngMarginal
  simp only [h1, List.length_map]
  show realFns.gammaln (Spec.ngPosterior p ys).alpha - realFns.gammaln p.alpha
      + p.alpha * Real.log (s ^ 2 * p.beta)
      - (Spec.ngPosterior p ys).alpha * Real.log (s ^ 2 * (Spec.ngPosterior p ys).beta)
      + Real.log (p.kappa / (Spec.ngPosterior p ys).kappa) / 2 - (ys.length : ℝ) / 2 * Real.log (2 * Real.pi) =
    realFns.gammaln (Spec.ngPosterior p ys).alpha - realFns.gammaln p.alpha
      + p.alpha * Real.log p.beta - (Spec.ngPosterior p ys).alpha * Real.log (Spec.ngPosterior p ys).beta
      + Real.log (p.kappa / (Spec.ngPosterior p ys).kappa) / 2 - (ys.length : ℝ) / 2 * Real.log (2 * Real.pi)
      - ys.length * Real.log |s|
  rw [hl _ hp.2.2, hl _ hq.2.2]
  have ha : (Spec.ngPosterior p ys).alpha = p.alpha + (ys.length : ℝ) / 2 := rfl
  rw [ha]
  ring

/-- C77: multiplying every regression target by `s ≠ 0`, the prior mean by `s` and the prior `beta` by `s²`
leaves all splits and importances unchanged, multiplies every prediction by `s`, and moves both scores of
every node by `-n_data_ * log |s|`.  With or without pruning, for any `delta ≥ 0`. -/
theorem C77_scale {hp : Hyper ℝ} {argsort argsort' : List ℝ → List Nat} {X : Nat → Nat → ℝ} {y : Nat → ℝ}
    {n nDim : Nat} {names : List String} {prior : NG ℝ} {t : PNode ℝ ℝ ℝ (NG ℝ)}
    (hr : Training hp argsort n nDim) (hr' : Training hp argsort' n nDim) (hprior : ProperNG prior)
    (hδ : 0 ≤ hp.delta) {s : ℝ} (hs : s ≠ 0)
    (h : perpFitRoot (exactOps ℝ) (regTarget realFns) argsort hp (some prior) X y n nDim names = .ok t) :
    ∃ t', perpFitRoot (exactOps ℝ) (regTarget realFns) argsort' hp
        (some { prior with mu := s * prior.mu, beta := s ^ 2 * prior.beta }) X (fun i => s * y i) n nDim names = .ok t' ∧
      (∀ addr, splitAt t' addr = splitAt t addr) ∧
      (∀ (Z : Nat → Nat → ℝ) (m : Nat), predict (perpRouter (exactOps ℝ)) (regTarget realFns) t' Z m =
        (predict (perpRouter (exactOps ℝ)) (regTarget realFns) t Z m).map (s * ·)) ∧
      perpFeatureImportance nDim t' = perpFeatureImportance nDim t ∧
      ∀ addr i sp l b c1 c2, nodeAt t addr = some (.split i sp l b c1 c2) →
        ∃ i' c1' c2', nodeAt t' addr = some (.split i' sp (l - i.nData * Real.log |s|) (b - i.nData * Real.log |s|) c1' c2') ∧
          i'.nData = i.nData := by
  have hT : CodeTarget realFns (regTarget realFns) (ngMarginal realFns) Spec.ngPosterior := .regression
  have hv := hr.valid hT (X := X) (y := y) (names := names)
  have hv' := hr'.valid hT (X := X) (y := fun i => s * y i) (names := names)
  have hsim : SimImage (fun _ => True) (exactCtx (regTarget realFns) (mlPair realFns (ngMarginal realFns)) hp X y nDim names)
      (exactCtx (regTarget realFns) (mlPair realFns (ngMarginal realFns)) hp X (fun i => s * y i) nDim names) n
      id (fun _ => id) (s * ·) (NG.scale s) (fun k v => v - k * Real.log |s|) ProperNG (fun _ => True) :=
    { nDim := rfl, dims := fun _ h => h, dimsInj := fun _ _ _ _ h => h, dimsSurj := fun d h => ⟨d, h, rfl⟩
      names := fun _ _ => rfl, X := fun _ _ _ _ => rfl, y := fun _ _ => rfl
      le := fun _ _ _ _ _ => rfl, gap := fun _ _ _ _ _ _ => rfl
      okTarget := fun _ _ => trivial, inj := fun a b _ _ h => mul_left_cancel₀ hs h, delta := Iff.rfl
      posterior1 := fun ys p _ _ _ => regPosterior_scale s p ys 1
      posteriorD := fun _ ys p hp hne _ => ⟨regPosterior_scale s p ys _, regPosterior_proper hp ys _ hδ hne⟩
      noSplit := fun lv ys p hp hne _ => by
        rw [hT.textbook.stay _ _ _ _ hne, hT.textbook.stay _ _ _ _ (by simpa using hne), ngMarginal_scale hs hp ys hne]
        ring
      pair := fun lv p ns a b hp _ hane hbne _ _ => by
        show _ + ngMarginal realFns (p.scale s) (a.map (s * ·)) + ngMarginal realFns (p.scale s) (b.map (s * ·)) = _
        rw [ngMarginal_scale hs hp a hane, ngMarginal_scale hs hp b hbne]
        push_cast
        ring
      mono := fun k a b => by simp }
  obtain ⟨t', h1, h2, -⟩ := fit_image hsim hv hv' hr.someRow (prior := some prior) rfl hprior rfl
    (fun _ _ _ p _ q _ => by
      show s * p.mu = s * q.mu ↔ p.mu = q.mu
      exact ⟨fun h => mul_left_cancel₀ hs h, fun h => by rw [h]⟩) h (.inl fun _ _ h _ => h)
  refine ⟨t', h1, fun addr => ?_, fun Z m => predict_ext _ fun i _ => ?_, ?_, ?_⟩
  · have := image_splitAt h2 addr
    cases hsp : splitAt t addr with
    | none => rw [hsp] at this; exact this
    | some sp =>
      rw [hsp] at this
      obtain ⟨-, a, b, -, e1, e2⟩ := this
      rw [e2]
      simp only [id, ← e1]
  · rw [image_descend h2 (Z i) (Z i) fun _ _ => rfl]
    rfl
  · unfold perpFeatureImportance perpImportanceRaw
    rw [image_importance h2 fun k a b => by ring]
  · intro addr i sp l b c1 c2 hu
    have := image_nodeAt h2 addr
    rw [hu] at this
    obtain ⟨u', hu', hi⟩ := this
    cases hi with
    | split => exact ⟨_, _, _, hu', rfl⟩

/-- C77 on two rows with targets 0 and 1 that are really split, with the sign flipped and in thousands. -/
example : ∃ t', perpFitRoot (exactOps ℝ) (regTarget realFns) realSort (regCtx2 ⟨0, 1, 1, 1⟩ 0 1 0 false).hp
      (some ⟨-1000 * 0, 1, 1, (-1000) ^ 2 * 1⟩) (regCtx2 ⟨0, 1, 1, 1⟩ 0 1 0 false).X
      (fun i => -1000 * (regCtx2 ⟨0, 1, 1, 1⟩ 0 1 0 false).y i) 2 1 ["x0"] = .ok t' ∧
    splitAt t' [] = some ⟨0, "x0", 1 / 2 * (0 + 1)⟩ := by
  have hr : Training (regCtx2 ⟨0, 1, 1, 1⟩ 0 1 0 false).hp realSort 2 1 :=
    ⟨le_refl _, realSort_sorts, by decide, by decide, by decide⟩
  obtain ⟨t', h1, h2, -⟩ := C77_scale hr hr ⟨by norm_num, by norm_num, by norm_num⟩ (le_refl _)
    (show (-1000 : ℝ) ≠ 0 by norm_num) (regTree2_fit ⟨0, 1, 1, 1⟩ 0 1 0)
  exact ⟨t', h1, h2 []⟩

section
variable {K : Type} [Field K] [LinearOrder K] [IsStrictOrderedRing K]
variable {F : Fns K} {P O : Type} {T : Target K P K O} {ml : P → List K → K} {post : P → List K → P}
  {hp : Hyper K} {argsort argsort' : List K → List Nat} {X : Nat → Nat → K} {y : Nat → K} {n nDim : Nat}
  {names : List String} {t : PNode K K K P}

/-! ## C78: monotone transformations of features -/

/-- C78: with `split_precision = 0`, replacing every feature by a strictly increasing function of it gives
a tree of the same shape with the same features at its splits, the same training rows at every node, the
same statistics, scores, importances and predictions of training rows.  Every threshold stays between the
same two training values: it is the midpoint of their images. -/
theorem C78_monotone (hT : CodeTarget F T ml post) (hr : Training hp argsort n nDim)
    (hr' : Training hp argsort' n nDim) (hprec : hp.splitPrecision = 0) (f : Nat → K → K)
    (hf : ∀ d, StrictMono (f d)) {prior : Option P}
    (h : perpFitRoot (exactOps K) T argsort hp prior X y n nDim names = .ok t) :
    ∃ t', perpFitRoot (exactOps K) T argsort' hp prior (fun i d => f d (X i d)) y n nDim names = .ok t' ∧
      (∀ addr, rowsAt (fun i d => f d (X i d)) t' n addr = rowsAt X t n addr) ∧
      (∀ addr, splitAt t addr = none → splitAt t' addr = none) ∧
      (∀ addr sp, splitAt t addr = some sp → ∃ a b, sp.value = (a + b) / 2 ∧ a ≤ b ∧
        splitAt t' addr = some ⟨sp.dim, sp.name, (f sp.dim a + f sp.dim b) / 2⟩) ∧
      (∀ addr i sp l b c1 c2, nodeAt t addr = some (.split i sp l b c1 c2) →
        ∃ i' sp' c1' c2', nodeAt t' addr = some (.split i' sp' l b c1' c2')) ∧
      (∀ addr, (nodeAt t' addr).map (fun u => (u.info.nData, u.info.prior, u.info.posterior)) =
        (nodeAt t addr).map fun u => (u.info.nData, u.info.prior, u.info.posterior)) ∧
      perpFeatureImportance nDim t' = perpFeatureImportance nDim t ∧
      predict (perpRouter (exactOps K)) T t' (fun i d => f d (X i d)) n =
        predict (perpRouter (exactOps K)) T t X n := by
  have hv := hr.valid hT (X := X) (y := y) (names := names)
  have hv' := hr'.valid hT (X := fun i d => f d (X i d)) (y := y) (names := names)
  have hsim : SimImage (fun _ => True) (exactCtx T (mlPair F ml) hp X y nDim names)
      (exactCtx T (mlPair F ml) hp (fun i d => f d (X i d)) y nDim names) n
      id f id id (fun _ => id) (fun _ => True) (fun _ => True) :=
    { nDim := rfl, dims := fun _ h => h, dimsInj := fun _ _ _ _ h => h, dimsSurj := fun d h => ⟨d, h, rfl⟩
      names := fun _ _ => rfl, X := fun _ _ _ _ => rfl, y := fun _ _ => rfl
      le := fun d a b _ _ => by simp [exactOps, (hf d).le_iff_le]
      gap := fun d a b _ _ _ => by
        simp only [hprec, exactOps, abs_pos, sub_ne_zero, (hf d).injective.ne_iff]
      okTarget := fun _ _ => trivial, inj := fun _ _ _ _ h => h, delta := Iff.rfl
      posterior1 := fun ys p _ _ _ => by simp
      posteriorD := fun _ ys p _ _ _ => by simp
      noSplit := fun lv ys p _ _ _ => by simp
      pair := fun lv p ns a b _ _ _ _ _ _ => by simp
      mono := fun _ _ _ => Iff.rfl }
  obtain ⟨t', h1, h2, h3⟩ := fit_image hsim hv hv' hr.someRow (prior := prior) (by simp) trivial rfl
    (fun _ _ _ _ _ _ _ => Iff.rfl) h (.inl fun _ _ h _ => h)
  rw [Option.map_id, id] at h1
  have hrow : ∀ addr, rowsAt (fun i d => f d (X i d)) t' n addr = rowsAt X t n addr := by
    intro addr
    unfold rowsAt
    refine List.filter_congr fun i hi => ?_
    rw [← passes_eq, ← passes_eq]
    exact h3 i (List.mem_range.1 hi) addr
  have hnode : ∀ addr, (nodeAt t' addr).map (fun u => (u.info.nData, u.info.prior, u.info.posterior)) =
      (nodeAt t addr).map fun u => (u.info.nData, u.info.prior, u.info.posterior) := by
    intro addr
    have := image_nodeAt h2 addr
    cases hu : nodeAt t addr with
    | none => rw [hu] at this; rw [this]
    | some u =>
      rw [hu] at this
      obtain ⟨u', hu', hi⟩ := this
      rw [hu']
      cases hi <;> simp [imageInfo, Node.info]
  refine ⟨t', h1, hrow, fun addr hsp => ?_, fun addr sp hsp => ?_, ?_, hnode, ?_, ?_⟩
  · have := image_splitAt h2 addr
    rw [hsp] at this; exact this
  · have := image_splitAt h2 addr
    rw [hsp] at this
    obtain ⟨-, a, b, e0, e1, e2⟩ := this
    exact ⟨a, b, e1, e0, e2⟩
  · intro addr i sp l b c1 c2 hu
    have := image_nodeAt h2 addr
    rw [hu] at this
    obtain ⟨u', hu', hi⟩ := this
    cases hi with
    | split => exact ⟨_, _, _, _, hu'⟩
  · unfold perpFeatureImportance perpImportanceRaw
    rw [image_importance h2 fun k a b => rfl]
  · have key : ∀ (u : PNode K K K P) (x : Nat → K), ∃ addr, follows u addr x = true ∧ nodeAt u addr = some (.leaf (descend u x)) := by
      intro u x
      induction u with
      | leaf i => exact ⟨[], by simp [follows], by simp [nodeAt, descend]⟩
      | split i sp l b c1 c2 ih1 ih2 =>
        by_cases hlt : x sp.dim < sp.value
        · obtain ⟨a, e1, e2⟩ := ih1
          exact ⟨false :: a, by simp [follows, hlt, e1], by simp [nodeAt, descend, hlt, e2]⟩
        · obtain ⟨a, e1, e2⟩ := ih2
          exact ⟨true :: a, by simp [follows, hlt, e1], by simp [nodeAt, descend, hlt, e2]⟩
    have key2 : ∀ (u : PNode K K K P) (x : Nat → K) (addr : List Bool) (j : Info K P), follows u addr x = true →
        nodeAt u addr = some (.leaf j) → descend u x = j := by
      intro u x
      induction u with
      | leaf i =>
        intro addr j _ h2
        cases addr with
        | nil => simpa [nodeAt, descend] using h2
        | cons => simp [nodeAt] at h2
      | split i sp l b c1 c2 ih1 ih2 =>
        intro addr j h1 h2
        cases addr with
        | nil => simp [nodeAt] at h2
        | cons q bs =>
          by_cases hlt : x sp.dim < sp.value
          · cases q <;> simp only [follows, hlt, if_true, Bool.not_false, Bool.not_true, Bool.true_and, Bool.false_and] at h1
            · simp only [descend, hlt, if_true]; exact ih1 bs j h1 (by simpa [nodeAt] using h2)
            · cases h1
          · cases q <;> simp only [follows, hlt, if_false, Bool.true_and, Bool.false_and] at h1
            · cases h1
            · simp only [descend, hlt, if_false]; exact ih2 bs j h1 (by simpa [nodeAt] using h2)
    rw [← List.map_id (predict _ _ t X n)]
    refine predict_ext id fun i hi => ?_
    obtain ⟨addr, e1, e2⟩ := key t (X i)
    have e3 : follows t' addr (fun d => f d (X i d)) = true := by
      rw [← passes_eq, h3 i hi addr, passes_eq]; exact e1
    have := image_nodeAt h2 addr
    rw [e2] at this
    obtain ⟨u', hu', hi'⟩ := this
    generalize hj : descend t (X i) = j at hi'
    cases hi' with
    | leaf =>
      rw [key2 t' _ addr _ e3 hu']
      rfl

end

/-- C78 on the three-leaf sample with real log-gamma scores: cubes instead of values. -/
example : ∃ t', perpFitRoot (exactOps ℝ) (clsTarget realFns) realSort (castHp sampleHp) (some (castL [1, 1]))
      (fun i d => ((castCtx sampleCtx).X i d) ^ 3) (castCtx sampleCtx).y 12 2 ["a", "b"] = .ok t' ∧
    (∀ addr, rowsAt (fun i d => ((castCtx sampleCtx).X i d) ^ 3) t' 12 addr =
      rowsAt (castCtx sampleCtx).X (castTree sampleHp sampleTree) 12 addr) ∧
    ∃ v, splitAt t' [] = some ⟨0, "a", v⟩ := by
  have hr : Training (castHp sampleHp) realSort 12 2 :=
    ⟨by simp [castHp, sampleHp], realSort_sorts, by decide, by decide, by decide⟩
  obtain ⟨t', h1, h2, -, h3, -⟩ := C78_monotone (CodeTarget.classification (F := realFns)) hr hr
    (by simp [castHp, sampleHp]) (fun _ v => v ^ 3) (fun _ => Odd.strictMono_pow (by decide)) sampleReal_fit
  obtain ⟨a, b, -, -, e⟩ := h3 [] ⟨0, "a", _⟩ rfl
  exact ⟨t', h1, h2, _, e⟩

/-! ## C79: permuted feature columns -/

section
variable {K : Type} [Field K] [LinearOrder K] [IsStrictOrderedRing K]
variable {F : Fns K} {P O : Type} {T : Target K P K O} {ml : P → List K → K} {post : P → List K → P}
  {hp : Hyper K} {argsort argsort' : List K → List Nat} {X : Nat → Nat → K} {y : Nat → K} {n nDim : Nat}
  {names names' : List String} {prior : P} {t t0 : PNode K K K P}

/-- C79: let column `e` of the new data be column `σ e` of the old data (`τ` being the inverse of `σ`), the
names being moved along.  If at no split of the unpruned tree `t0` another feature offers a cut with a
score as high as that of the chosen one, the new tree has the same splits (with the features' new numbers)
and predicts the same for every query whose columns are permuted in the same way.  With or without pruning.
What is missing: ties between features; with ties the claim is false, see `C79_refuted`. -/
theorem C79_columns_partial (hT : CodeTarget F T ml post) (hr : Training hp argsort n nDim)
    (hr' : Training hp argsort' n nDim) (σ τ : Nat → Nat)
    (hσ : ∀ e < nDim, σ e < nDim ∧ τ (σ e) = e) (hτ : ∀ d < nDim, τ d < nDim ∧ σ (τ d) = d)
    (hnames : ∀ d < nDim, names'[τ d]? = names[d]?)
    (h0 : perpFitRoot (exactOps K) T argsort { hp with prune := false } (some prior) X y n nDim names = .ok t0)
    (hties : ∀ addr i sp l b c1 c2 p, nodeAt t0 addr = some (.split i sp l b c1 c2) → i.prior = some p →
      ∀ d < nDim, d ≠ sp.dim → ∀ a c, IsCut hp.splitPrecision X (rowsAt X t0 n addr) d a c →
        perpCutScore F ml hp X y nDim p addr.length (rowsAt X t0 n addr) d a < b)
    (h : perpFitRoot (exactOps K) T argsort hp (some prior) X y n nDim names = .ok t) :
    ∃ t', perpFitRoot (exactOps K) T argsort' hp (some prior) (fun i e => X i (σ e)) y n nDim names' = .ok t' ∧
      (∀ addr, splitAt t' addr = (splitAt t addr).map fun sp => ⟨τ sp.dim, sp.name, sp.value⟩) ∧
      ∀ (Z : Nat → Nat → K) (m : Nat),
        predict (perpRouter (exactOps K)) T t' (fun i e => Z i (σ e)) m = predict (perpRouter (exactOps K)) T t Z m := by
  have hr0 : Training { hp with prune := false } argsort n nDim :=
    ⟨hr.precision, hr.sort, hr.someRow, hr.rows, hr.dims⟩
  have hv0 := hr0.valid hT (X := X) (y := y) (names := names)
  have hv := hr.valid hT (X := X) (y := y) (names := names)
  have hv' := hr'.valid hT (X := fun i e => X i (σ e)) (y := y) (names := names')
  have hsim : ∀ (σ τ : Nat → Nat) (names' : List String), (∀ e < nDim, σ e < nDim ∧ τ (σ e) = e) →
      (∀ d < nDim, τ d < nDim ∧ σ (τ d) = d) → (∀ d < nDim, names'[τ d]? = names[d]?) →
      SimImage (fun _ => True) (exactCtx T (mlPair F ml) { hp with prune := false } X y nDim names)
      (exactCtx T (mlPair F ml) hp (fun i e => X i (σ e)) y nDim names') n
      τ (fun _ => id) id id (fun _ => id) (fun _ => True) (fun _ => True) := fun σ τ names' hσ hτ hnames =>
    { nDim := rfl, dims := fun d h => (hτ d h).1
      dimsInj := fun d h d' h' e => by rw [← (hτ d h).2, e, (hτ d' h').2]
      dimsSurj := fun d h => ⟨σ d, (hσ d h).1, (hσ d h).2⟩
      names := hnames, X := fun i d _ hd => by show X i (σ (τ d)) = X i d; rw [(hτ d hd).2], y := fun _ _ => rfl
      le := fun d a b _ _ => rfl
      gap := fun d a b _ _ _ => rfl
      okTarget := fun _ _ => trivial, inj := fun _ _ _ _ h => h, delta := Iff.rfl
      posterior1 := fun ys p _ _ _ => by simp
      posteriorD := fun _ ys p _ _ _ => by simp
      noSplit := fun lv ys p _ _ _ => by simp
      pair := fun lv p ns a b _ _ _ _ _ _ => by simp
      mono := fun _ _ _ => Iff.rfl }
  have hno : NoTies (exactCtx T (mlPair F ml) { hp with prune := false } X y nDim names) 0 (List.range n) t0 := by
    intro addr i sp l b c1 c2 hu R' d hd hne cut hcut
    have hR : R' = rowsAt X t0 n addr := List.filter_congr fun j _ => passes_eq t0 addr (X j)
    rw [hR] at hcut ⊢
    obtain ⟨p, hpr⟩ := prior_some hT hr0 h0 hu
    have hpr : i.prior = some p := hpr
    rw [hpr, Nat.zero_add, score_closed hT hr0]
    exact hties addr i sp l b c1 c2 p hu hpr d hd hne cut.1 cut.2
      ((isCut_iff hr.precision X _ d cut).1 hcut)
  obtain ⟨t', h1, h2⟩ := fit_image_merge (hsim σ τ names' hσ hτ hnames) hv0 hv' hr.someRow (prior := some prior)
    (by simp) trivial rfl (fun _ _ => Iff.rfl) h0 (.inr hno)
  obtain ⟨t1, h3, h4⟩ := fit_image_merge (hsim id id names (fun e he => ⟨he, rfl⟩) (fun e he => ⟨he, rfl⟩)
    fun _ _ => rfl) hv0 hv hr.someRow (prior := some prior)
    (by simp) trivial rfl (fun _ _ => Iff.rfl) h0 (.inl fun _ _ h _ => h)
  rw [Option.map_id, id] at h1 h3
  obtain rfl : t1 = t := Except.ok.inj (h3.symm.trans h)
  refine ⟨t', h1, fun addr => ?_, fun Z m => ?_⟩
  · have g2 := image_splitAt h2 addr
    have g4 := image_splitAt h4 addr
    cases hsp : splitAt (if hp.prune then Spec.merge T.predictLeaf t0 else t0) addr with
    | none => rw [hsp] at g2 g4; rw [g2, g4]; rfl
    | some sp =>
      rw [hsp] at g2 g4
      obtain ⟨-, a, b, -, e1, e2⟩ := g2
      obtain ⟨-, a', b', -, e1', e2'⟩ := g4
      rw [e2, e2']
      simp only [id, ← e1, ← e1', Option.map_some]
  · rw [← List.map_id (predict _ _ t1 Z m)]
    refine predict_ext id fun i _ => ?_
    rw [image_descend h2 (Z i) (fun e => Z i (σ e)) fun d hd => by rw [(hτ d hd).2],
      image_descend h4 (Z i) (Z i) fun d hd => rfl]
    rfl

end

/-- Two rows of class 0 and 1 with features `0, 0` and `u, v`; column `e` of the data is feature `σ e`. -/
def colCtx (u v prec : ℚ) (σ : Nat → Nat) (names : List String) : Ctx ℚ ℚ (List ℚ) ℚ (List ℚ) where
  o := exactOps ℚ
  T := probTarget ℚ
  pair := probPair
  hp := ⟨9 / 10, 0, false, prec⟩
  X := fun i e => if i = 0 then 0 else if σ e = 0 then u else v
  y := fun i => if i = 0 then 0 else 1
  nDim := 2
  names := names

/-- Exchange of columns 0 and 1. -/
def swap01 (e : Nat) : Nat := if e = 0 then 1 else 0

/-- The tree fitted to it. -/
def colTree (u v prec : ℚ) (σ : Nat → Nat) (names : List String) : PNode ℚ ℚ ℚ (List ℚ) :=
  ((fitIn (colCtx u v prec σ names) (insArgsort (exactOps ℚ).le) (some [1, 1]) 2).toOption).getD
    (.leaf ⟨sampleHp, none, 0, none, 0, []⟩)

theorem col_cast_fit {u v prec : ℚ} {σ : Nat → Nat} {names : List String} (hprec : 0 ≤ prec)
    (h : fitIn (colCtx u v prec σ names) (insArgsort (exactOps ℚ).le) (some [1, 1]) 2 =
      .ok (colTree u v prec σ names)) :
    fitIn (castCtx (colCtx u v prec σ names)) realSort (some (castL [1, 1])) 2 =
      .ok (castTree (colCtx u v prec σ names).hp (colTree u v prec σ names)) :=
  cast_fit h rfl rfl rfl (by decide : 0 < 2) (by decide) (by decide) hprec (by decide +kernel : (0 : ℚ) < 9 / 10)
    (by decide +kernel : (9 / 10 : ℚ) < 1) (le_refl _) ⟨by simp, by decide +kernel⟩ realSort_spec

/-- The hypotheses of C79 hold for a tree that splits; the second feature varies by less than
`split_precision`. -/
example : ∃ t', perpFitRoot (exactOps ℝ) (clsTarget realFns) realSort (castHp (colCtx 1 (1 / 4) (1 / 2) id ["a", "b"]).hp)
      (some (castL [1, 1])) (fun i e => (castCtx (colCtx 1 (1 / 4) (1 / 2) id ["a", "b"])).X i (swap01 e))
      (castCtx (colCtx 1 (1 / 4) (1 / 2) id ["a", "b"])).y 2 2 ["b", "a"] = .ok t' ∧
    splitAt t' [] = some ⟨1, "a", ((1 / 2 : ℚ) : ℝ)⟩ := by
  have hr : Training (castHp (colCtx 1 (1 / 4) (1 / 2) id ["a", "b"]).hp) realSort 2 2 :=
    ⟨by norm_num [castHp, colCtx], realSort_sorts, by decide, by decide, by decide⟩
  have hfit := col_cast_fit (u := 1) (v := 1 / 4) (prec := 1 / 2) (σ := id) (names := ["a", "b"]) (by norm_num)
    (by decide +kernel)
  obtain ⟨t', h1, h2, -⟩ := C79_columns_partial (CodeTarget.classification (F := realFns)) hr hr swap01 swap01
    (by decide) (by decide) (names' := ["b", "a"]) (names := ["a", "b"]) (by decide)
    (X := (castCtx (colCtx 1 (1 / 4) (1 / 2) id ["a", "b"])).X) hfit
    (by
      intro addr i sp l b c1 c2 p hu _ d hd hne a c hcut
      exfalso
      have e : ∀ (t0 : PNode ℚ ℚ ℚ (List ℚ)) (addr : List Bool), nodeAt (castTree (colCtx 1 (1 / 4) (1 / 2) id ["a", "b"]).hp t0) addr =
          some (.split i sp l b c1 c2) → ∃ s, s ∈ splits t0 ∧ sp.dim = s.1.dim := by
        intro t0
        induction t0 with
        | leaf j => intro addr; cases addr <;> simp [castTree, mapTree, nodeAt]
        | split j sp' l' b' d1 d2 ih1 ih2 =>
          intro addr hu
          cases addr with
          | nil =>
            simp only [castTree, mapTree, nodeAt, Option.some.injEq, Node.split.injEq] at hu
            refine ⟨(sp', l', b'), by simp [splits], ?_⟩
            rw [← hu.2.1]
          | cons q bs =>
            cases q
            · obtain ⟨s, hs, e⟩ := ih1 bs (by simpa [castTree, mapTree, nodeAt] using hu)
              exact ⟨s, by simp [splits, hs], e⟩
            · obtain ⟨s, hs, e⟩ := ih2 bs (by simpa [castTree, mapTree, nodeAt] using hu)
              exact ⟨s, by simp [splits, hs], e⟩
      obtain ⟨s, hs, he⟩ := e _ _ hu
      have h0 : ∀ s ∈ splits (colTree 1 (1 / 4) (1 / 2) id ["a", "b"]), s.1.dim = 0 := by decide +kernel
      rw [he, h0 s hs] at hne
      obtain rfl : d = 1 := by omega
      obtain ⟨⟨i1, hi1, e1⟩, ⟨j1, hj1, f1⟩, hab, hp, -⟩ := hcut
      rw [← e1, ← f1] at hp
      have hX : ∀ k, (castCtx (colCtx 1 (1 / 4) (1 / 2) id ["a", "b"])).X k 1 = 0 ∨
          (castCtx (colCtx 1 (1 / 4) (1 / 2) id ["a", "b"])).X k 1 = 1 / 4 := by
        intro k
        by_cases hk : k = 0
        · left; simp [castCtx, colCtx, hk]
        · right; simp [castCtx, colCtx, hk]
      have hpr : (castHp (colCtx 1 (1 / 4) (1 / 2) id ["a", "b"]).hp).splitPrecision = 1 / 2 := by
        norm_num [castHp, colCtx]
      rw [hpr] at hp
      rcases hX i1 with g | g <;> rcases hX j1 with g' | g' <;> rw [g, g'] at hp <;> norm_num at hp)
    hfit
  refine ⟨t', h1, ?_⟩
  rw [h2 []]
  have : splitAt (colTree 1 (1 / 4) (1 / 2) id ["a", "b"]) [] = some ⟨0, "a", 1 / 2⟩ := by decide +kernel
  unfold castTree
  rw [splitAt_map, this]
  rfl

/-- C79 is false when two features offer equally good cuts: the one with the lower number is used.  Here two
features separate the two rows, one at 1/2 and the other at 1; exchanging the columns changes the prediction
for the query (1/4, 5). -/
theorem C79_refuted : ∃ (hp : Hyper ℝ) (prior : List ℝ) (X Z : Nat → Nat → ℝ) (y : Nat → ℝ)
    (t t' : PNode ℝ ℝ ℝ (List ℝ)), Training hp realSort 2 2 ∧ GoodPrior prior ∧
    0 < hp.partitionPrior ∧ hp.partitionPrior < 1 ∧ hp.delta = 0 ∧
    perpFitRoot (exactOps ℝ) (clsTarget realFns) realSort hp (some prior) X y 2 2 ["a", "b"] = .ok t ∧
    perpFitRoot (exactOps ℝ) (clsTarget realFns) realSort hp (some prior) (fun i e => X i (swap01 e)) y 2 2
      ["b", "a"] = .ok t' ∧
    predict (perpRouter (exactOps ℝ)) (clsTarget realFns) t Z 1 = [0] ∧
    predict (perpRouter (exactOps ℝ)) (clsTarget realFns) t' (fun i e => Z i (swap01 e)) 1 = [1] := by
  refine ⟨castHp ⟨9 / 10, 0, false, 0⟩, castL [1, 1], (castCtx (colCtx 1 2 0 id ["a", "b"])).X,
    fun _ d => ((if d = 0 then 1 / 4 else 5 : ℚ) : ℝ), (castCtx (colCtx 1 2 0 id ["a", "b"])).y, _, _,
    ⟨by norm_num [castHp], realSort_sorts, by decide, by decide, by decide⟩,
    ⟨by simp [castL], by intro a ha; simp [castL] at ha; rw [ha]; norm_num⟩, by norm_num [castHp],
    by norm_num [castHp], by norm_num [castHp],
    col_cast_fit (u := 1) (v := 2) (prec := 0) (σ := id) (names := ["a", "b"]) (le_refl _) (by decide +kernel),
    col_cast_fit (u := 1) (v := 2) (prec := 0) (σ := swap01) (names := ["b", "a"]) (le_refl _) (by decide +kernel),
    ?_, ?_⟩
  · rw [predict_cast]
    rw [show predict (perpRouter (exactOps ℚ)) (probTarget ℚ) (colTree 1 2 0 id ["a", "b"])
      (fun _ d => if d = 0 then 1 / 4 else 5) 1 = [0] by decide +kernel]
    simp [castL]
  · rw [predict_cast _ _ (fun _ e => if swap01 e = 0 then 1 / 4 else 5)]
    rw [show predict (perpRouter (exactOps ℚ)) (probTarget ℚ) (colTree 1 2 0 swap01 ["b", "a"])
      (fun _ e => if swap01 e = 0 then 1 / 4 else 5) 1 = [1] by decide +kernel]
    simp [castL]

end BT
