import Verif.Spec.Relabel
import Verif.Spec.Importance
import Verif.Lemmas.Cast
import Verif.Lemmas.RegSample
import Verif.Props.Predict
import Verif.Props.Greedy
import Verif.Props.Prune
import Mathlib.Algebra.BigOperators.Fin
import Mathlib.Logic.Equiv.Fin.Basic

/-!
# C60-C63: what happens to the tree when the problem is transformed
-/

namespace BT
open Spec

section
variable {V V' K K' P P' S S' : Type}

theorem splitAt_map (hp' : Hyper K') (fV : Nat → V → V') (fP : P → P') (fS : S → S') (t : PNode V S K P)
    (addr : List Bool) :
    splitAt (mapTree hp' fV fP fS t) addr =
      (splitAt t addr).map fun s => ⟨s.dim, s.name, fV s.dim s.value⟩ := by
  induction t generalizing addr with
  | leaf i => rfl
  | split i sp l b c1 c2 ih1 ih2 =>
    cases addr with
    | nil => rfl
    | cons a as => cases a <;> simp [mapTree, splitAt, ih1, ih2]

end

section
variable {K K' P P' S S' : Type} [Field K] [LinearOrder K] [Field K'] [LinearOrder K']

omit [Field K] [Field K'] in
/-- The leaf a query descends to in the transformed tree. -/
theorem descend_map (hp' : Hyper K') (fV : Nat → K → K') (fP : P → P') (fS : S → S')
    (hlt : ∀ d a v, fV d a < fV d v ↔ a < v) (t : PNode K S K P) (x : Nat → K) :
    descend (mapTree hp' fV fP fS t) (fun d => fV d (x d)) = mapInfo hp' fP (descend t x) := by
  induction t with
  | leaf i => rfl
  | split i sp l b c1 c2 ih1 ih2 =>
    simp only [mapTree, descend, hlt, ih1, ih2]
    split <;> rfl

end

/-! ## C61: increasing affine maps of features -/

section
variable {K P S O : Type} [Field K] [LinearOrder K] [IsStrictOrderedRing K] [LinearOrder S]

/-- The training data with feature `d` replaced by `a d * x + b d`. -/
def affine (a b : Nat → K) (X : Nat → Nat → K) : Nat → Nat → K := fun i d => a d * X i d + b d

/-- C61: with `split_precision = 0`, rescaling every feature by its own increasing affine map leaves
all predictions unchanged; the transformed tree has the same splits with transformed thresholds.
Any lawful target model, with or without pruning; the two sorts may break ties differently. -/
theorem C61_affine {c : Ctx K K P S O} {argsort argsort' : List K → List Nat} {n : Nat} {prior : Option P}
    {t : PNode K S K P} (ho : c.o = exactOps K) (hprec : c.hp.splitPrecision = 0)
    (hv : Valid (fun _ => True) c argsort n) (hn : 0 < n)
    (hs' : IsArgsort (exactOps K).le (fun _ => True) argsort')
    (a b : Nat → K) (ha : ∀ d, 0 < a d) (h : fitIn c argsort prior n = .ok t) :
    ∃ t', fitIn { c with X := affine a b c.X } argsort' prior n = .ok t' ∧
      (∀ addr, splitAt t' addr =
        (splitAt t addr).map fun s => ⟨s.dim, s.name, a s.dim * s.value + b s.dim⟩) ∧
      (∀ (X : Nat → Nat → K) (m : Nat),
        predict (perpRouter c.o) c.T t' (affine a b X) m = predict (perpRouter c.o) c.T t X m ∧
        predictProba (perpRouter c.o) c.T t' (affine a b X) m = predictProba (perpRouter c.o) c.T t X m) := by
  have hlt : ∀ d x v, a d * x + b d < a d * v + b d ↔ x < v := fun d x v => by
    rw [add_lt_add_iff_right]; exact mul_lt_mul_iff_right₀ (ha d)
  have hle : ∀ d x v, a d * x + b d ≤ a d * v + b d ↔ x ≤ v := fun d x v => by
    rw [add_le_add_iff_right]; exact mul_le_mul_iff_right₀ (ha d)
  have hv' : Valid (fun _ => True) { c with X := affine a b c.X } argsort' n :=
    { ops := hv.ops, target := hv.target, sort := by rw [ho]; exact hs', dims := hv.dims
      rows := hv.rows, vals := fun _ _ _ _ => trivial }
  have hsim : Sim (fun _ => True) c { c with X := affine a b c.X } n (fun d v => a d * v + b d) id id id
      (fun _ => True) (fun _ => True) (fun _ => True) :=
    { nDim := rfl, names := rfl, X := fun _ _ _ _ => rfl, y := fun _ _ => rfl
      le := fun d x y _ _ => by simp [ho, exactOps, hle]
      gap := fun d x y _ _ _ => by
        simp only [ho, hprec, exactOps, decide_eq_decide, abs_pos]
        rw [show a d * y + b d - (a d * x + b d) = a d * (y - x) by ring, mul_ne_zero_iff]
        exact ⟨fun h => h.2, fun h => ⟨(ha d).ne', h⟩⟩
      mid := fun d x y _ _ => by
        simp only [ho, exactOps]
        ring
      lt := fun d x v _ => by simp [ho, exactOps, hlt]
      ge := fun d x v _ => by simp [ho, exactOps, hle]
      okTarget := fun _ _ => trivial, inj := fun _ _ _ _ h => h, delta := Iff.rfl
      posterior1 := fun ys p _ _ _ => by simp
      posteriorD := fun _ ys p _ _ _ => by simp
      noSplit := fun lv ys p _ _ _ => by simp
      pair := fun lv p ns x y _ _ _ _ _ _ => by simp
      mono := fun _ _ _ _ => Iff.rfl }
  have hf := fit_sim hsim hv hv' hn (prior := prior) (by simp) trivial rfl (fun _ _ _ => Iff.rfl) h
  rw [Option.map_id, id] at hf
  refine ⟨_, hf, splitAt_map _ _ _ _ t, fun X m => ?_⟩
  have hw : ∀ x : Nat → K, walk (perpRouter c.o) (mapTree c.hp (fun d v => a d * v + b d) id id t)
      (fun d => a d * x d + b d) = (walk (perpRouter c.o) t x).map (mapInfo c.hp id) := by
    intro x
    rw [ho]
    exact walk_map (o := exactOps K) (o' := exactOps K) c.hp _ id id
      (fun d x v => by simp [exactOps, hlt]) (fun d x v => by simp [exactOps, hle]) x t
  have key : ∀ {Q : Type} (val : Info K P → Q) (init : Q) (_ : ∀ i, val (mapInfo c.hp id i) = val i),
      predictRows (perpRouter c.o) val init (affine a b X) m
        (mapTree c.hp (fun d v => a d * v + b d) id id t) =
      predictRows (perpRouter c.o) val init X m t := by
    intro Q val init hval
    have hex : Exclusive (perpRouter c.o) := by rw [ho]; exact exact_exclusive
    apply List.ext_getElem?
    intro i
    by_cases hi : i < m
    · rw [predictRows_getElem? _ hex _ _ _ _ _ _ hi, predictRows_getElem? _ hex _ _ _ _ _ _ hi]
      have := hw (X i)
      unfold affine
      rw [this]
      cases walk (perpRouter c.o) t (X i) with
      | none => rfl
      | some l => simp [hval]
    · rw [List.getElem?_eq_none (by rw [predictRows_length]; omega),
        List.getElem?_eq_none (by rw [predictRows_length]; omega)]
  exact ⟨key _ _ fun _ => rfl, key _ _ fun _ => rfl⟩

end

/-- C61 on the three-leaf sample with real log-gamma scores, temperatures converted from Celsius to
Fahrenheit. -/
example : ∃ t', fitIn { castCtx sampleCtx with X := affine (fun _ => 9 / 5) (fun _ => 32) (castCtx sampleCtx).X }
      realSort (some (castL [1, 1])) 12 = .ok t' ∧
    ∀ addr, splitAt t' addr = (splitAt (castTree sampleHp sampleTree) addr).map
      fun s => ⟨s.dim, s.name, 9 / 5 * s.value + 32⟩ := by
  obtain ⟨t', h1, h2, -⟩ := C61_affine (c := castCtx sampleCtx) rfl (by simp [castCtx, castHp, sampleCtx, sampleHp])
    sampleReal_valid (by decide) realSort_spec (fun _ => 9 / 5) (fun _ => 32) (fun _ => by norm_num)
    sampleReal_fit
  exact ⟨t', h1, h2⟩

/-! ## C62: shifting regression targets -/

section
variable {K : Type} [Field K] [LinearOrder K] [IsStrictOrderedRing K]

/-- A prior whose mean is moved by `s`. -/
def NG.shift (s : K) (p : NG K) : NG K := { p with mu := p.mu + s }

omit [LinearOrder K] [IsStrictOrderedRing K] in
theorem sum_shift (s : K) (ys : List K) : (ys.map (· + s)).sum = ys.sum + (ys.length : K) * s := by
  induction ys with
  | nil => simp
  | cons a l ih => simp only [List.map_cons, List.sum_cons, ih, List.length_cons]; push_cast; ring

omit [LinearOrder K] [IsStrictOrderedRing K] in
theorem sumSq_shift (s : K) (ys : List K) : ((ys.map (· + s)).map fun v => v ^ 2).sum =
    (ys.map fun v => v ^ 2).sum + 2 * s * ys.sum + (ys.length : K) * s ^ 2 := by
  induction ys with
  | nil => simp
  | cons a l ih => simp only [List.map_cons, List.sum_cons, ih, List.length_cons]; push_cast; ring

omit [LinearOrder K] [IsStrictOrderedRing K] in
theorem ngPosterior_shift (s : K) (p : NG K) (n : Nat) (a q δ : K) (hn : (n : K) ≠ 0)
    (hκ : p.kappa + (n : K) * δ ≠ 0) :
    BT.ngPosterior (p.shift s) n (a + (n : K) * s) (q + 2 * s * a + (n : K) * s ^ 2) δ =
      (BT.ngPosterior p n a q δ).shift s := by
  unfold BT.ngPosterior NG.shift
  simp only [NG.mk.injEq, true_and]
  refine ⟨?_, ?_⟩
  · rw [div_add' _ _ _ hκ]
    congr 1
    rw [mul_div_assoc, mul_div_assoc, add_div, mul_div_cancel_left₀ _ hn]
    ring
  · have e1 : (a + (n : K) * s) / (n : K) - (p.mu + s) = a / (n : K) - p.mu := by
      rw [add_div, mul_div_cancel_left₀ _ hn]; ring
    have e2 : q + 2 * s * a + (n : K) * s ^ 2 - (a + (n : K) * s) ^ 2 / (n : K) = q - a ^ 2 / (n : K) := by
      field_simp
      ring
    rw [e1, e2]

theorem regPosterior_shift (s : K) (p : NG K) (ys : List K) (δ : K) (hys : ys ≠ []) (hδ : 0 ≤ δ)
    (hκ : 0 < p.kappa) :
    regPosterior (ys.map (· + s)) (p.shift s) δ = (regPosterior ys p δ).shift s := by
  unfold regPosterior
  split
  · rfl
  · have hn : (ys.length : K) ≠ 0 := by
      rw [Nat.cast_ne_zero]; exact fun h0 => hys (List.eq_nil_of_length_eq_zero h0)
    rw [sum_shift, sumSq_shift, List.length_map, ngPosterior_shift _ _ _ _ _ _ hn]
    have : (0 : K) ≤ (ys.length : K) * δ := by positivity
    exact (by linarith : (0 : K) < p.kappa + (ys.length : K) * δ).ne'

theorem ngMarginal_shift (F : Fns K) (s : K) (p : NG K) (ys : List K) (hys : ys ≠ []) (hκ : 0 < p.kappa) :
    ngMarginal F (p.shift s) (ys.map (· + s)) = ngMarginal F p ys := by
  have h1 := regPosterior_shift s p ys 1 hys zero_le_one hκ
  rw [regPosterior_one _ _ hys, regPosterior_one _ _ (by simpa using hys)] at h1
  unfold ngMarginal
  simp only [h1, List.length_map]
  rfl

/-- C62: adding `s` to every regression target and to the prior mean leaves all splits unchanged and
adds `s` to every prediction; with or without pruning. -/
theorem C62_shift {F : Fns K} {c : Ctx K K (NG K) K K} {argsort : List K → List Nat} {n : Nat}
    {prior : NG K} {t : PNode K K K (NG K)} (ho : c.o = exactOps K) (hT : c.T = regTarget F)
    (hpair : c.pair = regPair F) (hv : Valid (fun _ => True) c argsort n) (hn : 0 < n)
    (hκ : 0 < prior.kappa) (hδ : 0 ≤ c.hp.delta) (s : K) (h : fitIn c argsort (some prior) n = .ok t) :
    ∃ t', fitIn { c with y := fun i => c.y i + s } argsort (some { prior with mu := prior.mu + s }) n = .ok t' ∧
      (∀ addr, splitAt t' addr = splitAt t addr) ∧
      (∀ (X : Nat → Nat → K) (m : Nat), predict (perpRouter c.o) c.T t' X m =
        (predict (perpRouter c.o) c.T t X m).map (· + s)) := by
  have hv' : Valid (fun _ => True) { c with y := fun i => c.y i + s } argsort n :=
    { ops := hv.ops, target := hv.target, sort := hv.sort, dims := hv.dims
      rows := hv.rows, vals := hv.vals }
  have hsim : Sim (fun _ => True) c { c with y := fun i => c.y i + s } n (fun _ => id) (· + s)
      (NG.shift s) id (fun p => 0 < p.kappa) (fun _ => True) (fun _ => True) :=
    { nDim := rfl, names := rfl, X := fun _ _ _ _ => rfl, y := fun _ _ => rfl
      le := fun _ _ _ _ _ => rfl, gap := fun _ _ _ _ _ _ => rfl, mid := fun _ _ _ _ _ => rfl
      lt := fun _ _ _ _ => rfl, ge := fun _ _ _ _ => rfl
      okTarget := fun _ _ => trivial, inj := fun _ _ _ _ h => add_right_cancel h, delta := Iff.rfl
      posterior1 := fun ys p hp hne _ => by
        rw [hT]; exact regPosterior_shift s p ys 1 hne zero_le_one hp
      posteriorD := fun _ ys p hp hne _ => by
        rw [hT]
        refine ⟨regPosterior_shift s p ys _ hne hδ hp, ?_⟩
        show 0 < (regPosterior ys p c.hp.delta).kappa
        unfold regPosterior
        split
        · exact hp
        · have : (0 : K) ≤ (ys.length : K) * c.hp.delta := by positivity
          exact add_pos_of_pos_of_nonneg hp this
      noSplit := fun lv ys p hp hne _ => by
        rw [hT]
        refine ⟨?_, trivial⟩
        show regLogNoSplit F _ lv (ys.map (· + s)) (p.shift s) = regLogNoSplit F _ lv ys p
        rw [regLogNoSplit_eq _ _ _ _ _ hne, regLogNoSplit_eq _ _ _ _ _ (by simpa using hne),
          ngMarginal_shift F s p ys hne hp]
      pair := fun lv p ns a b hp _ hane hbne _ _ => by
        rw [hpair]
        refine ⟨?_, trivial⟩
        show regPair F _ lv (p.shift s) _ ns (a.map (· + s)) (b.map (· + s)) = regPair F _ lv p _ ns a b
        unfold regPair
        rw [ngMarginal_shift F s p a hane hp, ngMarginal_shift F s p b hbne hp]
      mono := fun _ _ _ _ => Iff.rfl }
  have hgp : ∀ (q : NG K) m d, c.T.getPrior (some q) m d = q := fun q m d => by rw [hT]; rfl
  have hf := fit_sim hsim hv hv' hn (prior := some prior) (by simp [hgp]) (by rw [hgp]; exact hκ) rfl
    (fun _ p q => by
      rw [hT]
      show p.mu + s = q.mu + s ↔ p.mu = q.mu
      exact add_left_inj s) h
  refine ⟨_, hf, fun addr => ?_, fun X m => ?_⟩
  · rw [splitAt_map]
    cases splitAt t addr <;> rfl
  · apply List.ext_getElem?
    intro i
    rw [List.getElem?_map]
    by_cases hi : i < m
    · rw [ho, C01_predict_descends _ _ _ _ _ hi, C01_predict_descends _ _ _ _ _ hi]
      have := descend_map (K := K) (K' := K) c.hp (fun _ => id) (NG.shift s) (id : K → K)
        (fun _ _ _ => Iff.rfl) t (X i)
      simp only [id] at this
      show some (c.T.predictLeaf (descend (mapTree c.hp (fun _ => id) (NG.shift s) id t) (X i)).posterior) = _
      rw [show descend (mapTree c.hp (fun _ => id) (NG.shift s) id t) (X i) =
        mapInfo c.hp (NG.shift s) (descend t (X i)) from this, hT]
      rfl
    · rw [List.getElem?_eq_none (by unfold predict; rw [predictRows_length]; omega),
        List.getElem?_eq_none (by unfold predict; rw [predictRows_length]; omega)]
      rfl

end

/-- C62 on two rows with targets 0 and 1 that are really split, shifted by 5. -/
example : ∃ t', fitIn { regCtx2 ⟨0, 1, 1, 1⟩ 0 1 0 false with y := fun i => (regCtx2 ⟨0, 1, 1, 1⟩ 0 1 0 false).y i + 5 }
      realSort (some ⟨0 + 5, 1, 1, 1⟩) 2 = .ok t' ∧
    splitAt t' [] = some ⟨0, "x0", 1 / 2 * (0 + 1)⟩ := by
  obtain ⟨t', h1, h2, -⟩ := C62_shift (c := regCtx2 ⟨0, 1, 1, 1⟩ 0 1 0 false) rfl rfl rfl (regCtx2_valid _ _ _ _ _)
    (by decide) (by norm_num) (le_refl _) 5 (regTree2_fit ⟨0, 1, 1, 1⟩ 0 1 0)
  exact ⟨t', h1, h2 []⟩

/-! ## C60: renaming classes -/

theorem mem_posts {Sp S K P : Type} {t : Node Sp S K P} {p : P} (h : p ∈ posts t) :
    ∃ addr u, nodeAt t addr = some u ∧ u.info.posterior = p := by
  induction t with
  | leaf i =>
    simp only [posts, List.mem_singleton] at h
    exact ⟨[], _, nodeAt_nil _, h.symm⟩
  | split i sp l b c1 c2 ih1 ih2 =>
    simp only [posts, List.mem_cons, List.mem_append] at h
    rcases h with h | h | h
    · exact ⟨[], _, nodeAt_nil _, h.symm⟩
    · obtain ⟨a, u, e1, e2⟩ := ih1 h; exact ⟨false :: a, u, e1, e2⟩
    · obtain ⟨a, u, e1, e2⟩ := ih2 h; exact ⟨true :: a, u, e1, e2⟩

section
variable {K : Type} [Field K] [LinearOrder K] [IsStrictOrderedRing K] {k : Nat}

/-- The relabelled vector. -/
def permute (σ : Equiv.Perm (Fin k)) (p : List K) : List K :=
  List.ofFn fun j : Fin k => p.getD (σ.symm j) 0

omit [LinearOrder K] [IsStrictOrderedRing K] in
theorem permute_length (σ : Equiv.Perm (Fin k)) (p : List K) : (permute σ p).length = k := by
  simp [permute]

omit [LinearOrder K] [IsStrictOrderedRing K] in
theorem permute_get (σ : Equiv.Perm (Fin k)) (p : List K) (hp : p.length = k) (j : Fin k) :
    (permute σ p)[(j : Nat)]? = p[(σ.symm j : Nat)]? := by
  have h1 : (σ.symm j : Nat) < p.length := by rw [hp]; exact (σ.symm j).2
  simp [permute, h1]

omit [LinearOrder K] [IsStrictOrderedRing K] in
theorem permute_relabelled (σ : Equiv.Perm (Fin k)) (p : List K) (hp : p.length = k) :
    Relabelled σ p (permute σ p) := by
  refine ⟨hp, permute_length σ p, fun j => ?_⟩
  rw [permute_get σ p hp, Equiv.symm_apply_apply]

omit [LinearOrder K] [IsStrictOrderedRing K] in
theorem relabelled_eq {σ : Equiv.Perm (Fin k)} {p p' : List K} (h : Relabelled σ p p') :
    p' = permute σ p := by
  apply List.ext_getElem?
  intro i
  by_cases hi : i < k
  · have := h.2.2 (σ.symm ⟨i, hi⟩)
    rw [Equiv.apply_symm_apply] at this
    rw [this, ← permute_get σ p h.1]
  · rw [List.getElem?_eq_none (by rw [h.2.1]; omega),
      List.getElem?_eq_none (by rw [permute_length]; omega)]

omit [LinearOrder K] [IsStrictOrderedRing K] in
theorem permute_perm (σ : Equiv.Perm (Fin k)) (p : List K) (hp : p.length = k) : (permute σ p).Perm p := by
  have h1 := Equiv.Perm.ofFn_comp_perm σ.symm (fun j : Fin k => p.getD j 0)
  have h2 : List.ofFn (fun j : Fin k => p.getD j 0) = p := by
    subst hp
    simp
  rw [h2] at h1
  exact h1

omit [IsStrictOrderedRing K] [LinearOrder K] in
theorem logBeta_perm {F : Fns K} (hsym : ∀ a b, F.betaln a b = F.betaln b a) {p q : List K}
    (h : p.Perm q) : logBeta F p = logBeta F q := by
  unfold logBeta
  rw [h.length_eq, h.sum_eq, (h.map F.gammaln).sum_eq]
  split
  · next h2 =>
    obtain ⟨a, b, rfl⟩ := List.length_eq_two.1 h2
    rcases List.perm_pair.1 h with rfl | rfl
    · rfl
    · exact hsym _ _
  · rfl

open Classical in
/-- The relabelling as a map of target values. -/
noncomputable def relab (σ : Equiv.Perm (Fin k)) (v : K) : K :=
  if h : ∃ i : Fin k, v = ((i : Nat) : K) then ((σ h.choose : Nat) : K) else v

theorem relab_coe (σ : Equiv.Perm (Fin k)) (i : Fin k) :
    relab σ (((i : Nat) : K)) = ((σ i : Nat) : K) := by
  have h : ∃ j : Fin k, (((i : Nat) : K)) = ((j : Nat) : K) := ⟨i, rfl⟩
  have e : h.choose = i := Fin.ext (Nat.cast_injective (R := K) h.choose_spec).symm
  unfold relab
  rw [dif_pos h, e]

theorem count_relab (σ : Equiv.Perm (Fin k)) (ys : List K) (hy : ∀ v ∈ ys, ∃ i : Fin k, v = ((i : Nat) : K))
    (j : Fin k) : count (ys.map (relab σ)) (j : Nat) = count ys (σ.symm j : Nat) := by
  induction ys with
  | nil => rfl
  | cons v ys ih =>
    have ih' := ih fun w hw => hy w (List.mem_cons_of_mem _ hw)
    obtain ⟨i, rfl⟩ := hy v List.mem_cons_self
    unfold count at ih' ⊢
    rw [List.map_cons, relab_coe]
    have e : (((σ i : Nat) : K) = ((j : Nat) : K)) ↔ (((i : Nat) : K) = ((σ.symm j : Nat) : K)) := by
      rw [Nat.cast_inj, Nat.cast_inj, ← Fin.ext_iff, ← Fin.ext_iff, Equiv.eq_symm_apply]
    by_cases hc : ((i : Nat) : K) = ((σ.symm j : Nat) : K)
    · rw [List.filter_cons_of_pos (by simpa using e.2 hc), List.filter_cons_of_pos (by simpa using hc)]
      simp only [List.length_cons, ih']
    · rw [List.filter_cons_of_neg (by simpa using fun h => hc (e.1 h)),
        List.filter_cons_of_neg (by simpa using hc), ih']

theorem clsPosterior_relab (σ : Equiv.Perm (Fin k)) (ys p : List K) (δ : K) (hp : p.length = k)
    (hy : ∀ v ∈ ys, ∃ i : Fin k, v = ((i : Nat) : K)) :
    clsPosterior (ys.map (relab σ)) (permute σ p) δ = permute σ (clsPosterior ys p δ) := by
  have hl : (clsPosterior ys p δ).length = k := by rw [clsPosterior_length, hp]
  apply List.ext_getElem?
  intro i
  by_cases hi : i < k
  · have e := permute_get σ _ hl ⟨i, hi⟩
    simp only at e
    rw [e]
    unfold clsPosterior
    split
    · exact permute_get σ p hp ⟨i, hi⟩
    · rw [List.getElem?_mapIdx, List.getElem?_mapIdx, permute_get σ p hp ⟨i, hi⟩, classCount_eq,
        classCount_eq, count_relab σ ys hy ⟨i, hi⟩]
  · rw [List.getElem?_eq_none (by rw [clsPosterior_length, permute_length]; omega),
      List.getElem?_eq_none (by rw [permute_length]; omega)]

theorem dirichletMarginal_relab {F : Fns K} (hsym : ∀ a b, F.betaln a b = F.betaln b a)
    (σ : Equiv.Perm (Fin k)) (ys p : List K) (hp : p.length = k)
    (hy : ∀ v ∈ ys, ∃ i : Fin k, v = ((i : Nat) : K)) :
    dirichletMarginal F (permute σ p) (ys.map (relab σ)) = dirichletMarginal F p ys := by
  have h1 := clsPosterior_relab σ ys p 1 hp hy
  rw [clsPosterior_one, clsPosterior_one] at h1
  have hl : (dirichletPosterior p ys).length = k := by simp [dirichletPosterior, hp]
  unfold dirichletMarginal
  rw [h1, logBeta_perm hsym (permute_perm σ _ hl), logBeta_perm hsym (permute_perm σ _ hp)]

omit [IsStrictOrderedRing K] in
theorem argmax_relab (σ : Equiv.Perm (Fin k)) {p : List K} (hp : p.length = k) (hu : UniqueMax p) :
    ∃ j : Fin k, argmax p = (j : Nat) ∧ argmax (permute σ p) = (σ j : Nat) := by
  obtain ⟨i, v, hi, hmax⟩ := hu
  have hik : i < k := by rw [← hp]; exact (List.getElem?_eq_some_iff.1 hi).1
  have hlt : ∀ (j : Nat) (w : K), p[j]? = some w → j ≠ i → w < v := fun j w hw hj =>
    not_le.1 fun hle => hj (hmax j w hw hle)
  have hle : ∀ (j : Nat) (w : K), p[j]? = some w → w ≤ v := fun j w hw => by
    by_cases hj : j = i
    · subst hj; rw [hi] at hw; exact (Option.some.inj hw).symm.le
    · exact (hlt j w hw hj).le
  refine ⟨⟨i, hik⟩, ?_, ?_⟩
  · refine argmax_unique hi (fun a ha => ?_) (fun j hj a ha => hlt j a ha (Nat.ne_of_lt hj))
    obtain ⟨j, hj⟩ := List.getElem?_of_mem ha
    exact hle j a hj
  · have hg := (permute_relabelled σ p hp).2.2 ⟨i, hik⟩
    simp only at hg
    refine argmax_unique (v := v) (by rw [hg]; exact hi) (fun a ha => ?_) (fun j hj a ha => ?_)
    · obtain ⟨j, hj⟩ := List.getElem?_of_mem ((permute_perm σ p hp).mem_iff.1 ha)
      exact hle j a hj
    · have hjk : j < k := by rw [← permute_length σ p]; exact (List.getElem?_eq_some_iff.1 ha).1
      rw [permute_get σ p hp ⟨j, hjk⟩] at ha
      refine hlt _ a ha fun h => ?_
      have : σ.symm ⟨j, hjk⟩ = ⟨i, hik⟩ := Fin.ext h
      rw [Equiv.symm_apply_eq] at this
      rw [← this] at hj
      exact lt_irrefl _ hj

/-- C60, for unpruned trees, and for pruned trees if no node of the unpruned tree has two equally
likely classes at the top: renaming class `j` to `σ j` in the targets and in the prior gives the same
splits and relabelled class probabilities for every query; the predicted class is renamed too where it
is the only most likely one.  `hsym` is the symmetry of scipy's `betaln`.

Missing: pruned trees with ties, for which the claim is false (`C60_refuted`). -/
theorem C60_relabel_partial {F : Fns K} (hsym : ∀ a b, F.betaln a b = F.betaln b a)
    {c : Ctx K K (List K) K (List K)} {argsort : List K → List Nat} {n : Nat} {prior prior' : List K}
    {t : PNode K K K (List K)} (ho : c.o = exactOps K) (hT : c.T = clsTarget F) (hpair : c.pair = clsPair F)
    (hv : Valid (fun _ => True) c argsort n) (hn : 0 < n) (hgood : GoodPrior prior) (hδ : 0 ≤ c.hp.delta)
    (σ : Equiv.Perm (Fin k)) (label : Nat → Fin k) (hy : ∀ i < n, c.y i = ((label i : Nat) : K))
    (y' : Nat → K) (hy' : ∀ i < n, y' i = ((σ (label i) : Nat) : K)) (hprior : Relabelled σ prior prior')
    (hties : c.hp.prune = true → ∀ t0, fitIn (withPrune c false) argsort (some prior) n = .ok t0 →
      ∀ addr u, nodeAt t0 addr = some u → UniqueMax u.info.posterior)
    (h : fitIn c argsort (some prior) n = .ok t) :
    ∃ t', fitIn { c with y := y' } argsort (some prior') n = .ok t' ∧
      (∀ addr, splitAt t' addr = splitAt t addr) ∧
      ∀ (X : Nat → Nat → K) (m i : Nat), i < m → ∃ p p',
        (predictProba (perpRouter c.o) c.T t X m)[i]? = some (some p) ∧
        (predictProba (perpRouter c.o) c.T t' X m)[i]? = some (some p') ∧ Relabelled σ p p' ∧
        (UniqueMax p → ∃ j : Fin k,
          (predict (perpRouter c.o) c.T t X m)[i]? = some ((j : Nat) : K) ∧
          (predict (perpRouter c.o) c.T t' X m)[i]? = some ((σ j : Nat) : K)) := by
  rw [relabelled_eq hprior]
  have hplen := hprior.1
  have hv' : Valid (fun _ => True) { c with y := y' } argsort n :=
    { ops := hv.ops, target := hv.target, sort := hv.sort, dims := hv.dims
      rows := hv.rows, vals := hv.vals }
  have hsim : Sim (fun _ => True) c { c with y := y' } n (fun _ => id) (relab σ) (permute σ) id
      (fun p => p.length = k) (fun v => ∃ i : Fin k, v = ((i : Nat) : K)) (fun _ => True) :=
    { nDim := rfl, names := rfl, X := fun _ _ _ _ => rfl
      y := fun i hi => by
        show y' i = _
        rw [hy' i hi, hy i hi, relab_coe]
      le := fun _ _ _ _ _ => rfl, gap := fun _ _ _ _ _ _ => rfl, mid := fun _ _ _ _ _ => rfl
      lt := fun _ _ _ _ => rfl, ge := fun _ _ _ _ => rfl
      okTarget := fun i hi => ⟨label i, hy i hi⟩
      inj := by
        rintro _ _ ⟨i, rfl⟩ ⟨j, rfl⟩ h
        rw [relab_coe, relab_coe, Nat.cast_inj, ← Fin.ext_iff] at h
        rw [σ.injective h]
      delta := Iff.rfl
      posterior1 := fun ys p hp _ hys => by rw [hT]; exact clsPosterior_relab σ ys p 1 hp hys
      posteriorD := fun _ ys p hp _ hys => by
        rw [hT]
        exact ⟨clsPosterior_relab σ ys p _ hp hys, by
          show (clsPosterior ys p _).length = k
          rw [clsPosterior_length, hp]⟩
      noSplit := fun lv ys p hp _ hys => by
        rw [hT]
        refine ⟨?_, trivial⟩
        show clsLogNoSplit F _ lv (ys.map (relab σ)) (permute σ p) = clsLogNoSplit F _ lv ys p
        rw [clsLogNoSplit_eq, clsLogNoSplit_eq, dirichletMarginal_relab hsym σ ys p hp hys]
      pair := fun lv p ns a b hp _ _ _ ha hb => by
        rw [hpair]
        refine ⟨?_, trivial⟩
        show clsPair F _ lv (permute σ p) _ ns (a.map (relab σ)) (b.map (relab σ)) = clsPair F _ lv p _ ns a b
        unfold clsPair
        rw [dirichletMarginal_relab hsym σ a p hp ha, dirichletMarginal_relab hsym σ b p hp hb]
      mono := fun _ _ _ _ => Iff.rfl }
  have hgp : ∀ (q : List K) m d, c.T.getPrior (some q) m d = q := fun q m d => by rw [hT]; rfl
  have hf := fit_sim_on hsim hv hv' hn (prior := some prior) (by simp [hgp]) (by rw [hgp]; exact hplen) rfl
    (fun hp t0 hb p hpm q hqm => by
      have hfit := fit_of_built (withPrune_valid hv false) (built_withPrune hv hn false hb)
      simp only [withPrune, Bool.false_eq_true, if_false] at hfit
      have hpost : ∀ r ∈ posts t0, UniqueMax r ∧ r.length = k := by
        intro r hr
        obtain ⟨addr, u, hu, rfl⟩ := mem_posts hr
        have hu' : nodeAt (setHp (withPrune c false).hp t0) addr = some (setHp (withPrune c false).hp u) := by
          rw [nodeAt_setHp, hu]; rfl
        rw [← setHp_post (withPrune c false).hp u]
        exact ⟨hties hp _ hfit addr _ hu', (cls_posteriors (c := withPrune c false) hT
          (withPrune_valid hv false) hn hgood hδ hfit addr _ hu').2.trans hplen⟩
      obtain ⟨i, ei, ei'⟩ := argmax_relab σ (hpost p hpm).2 (hpost p hpm).1
      obtain ⟨j, ej, ej'⟩ := argmax_relab σ (hpost q hqm).2 (hpost q hqm).1
      rw [hT]
      show ((argmax (permute σ p) : Nat) : K) = ((argmax (permute σ q) : Nat) : K) ↔
        ((argmax p : Nat) : K) = ((argmax q : Nat) : K)
      rw [ei, ej, ei', ej', Nat.cast_inj, Nat.cast_inj, ← Fin.ext_iff, ← Fin.ext_iff]
      exact σ.injective.eq_iff) h
  refine ⟨_, hf, fun addr => ?_, fun X m i hi => ?_⟩
  · rw [splitAt_map]
    cases splitAt t addr <;> rfl
  · obtain ⟨addr, l, hl, hps, e1, e2, -⟩ := C02_exact_always_leaf c.T t X m i hi
    have hl' : nodeAt (mapTree c.hp (fun _ => id) (permute σ) id t) addr =
        some (.leaf (mapInfo c.hp (permute σ) l)) := by rw [nodeAt_map, hl]; rfl
    obtain ⟨hg, hlen⟩ := cls_posteriors hT hv hn hgood hδ h addr _ hl
    change GoodPrior l.posterior at hg
    change l.posterior.length = _ at hlen
    rw [hplen] at hlen
    have hs := listSum_pos hg.1 hg.2
    have hw := (walk_iff _ _ _ _).2 ⟨addr, hl, hps⟩
    have hw' := walk_map (o := exactOps K) (o' := exactOps K) c.hp (fun _ => id) (permute σ) (id : K → K)
      (fun _ _ _ => rfl) (fun _ _ _ => rfl) (X i) t
    rw [hw] at hw'
    change walk (perpRouter (exactOps K)) (mapTree c.hp (fun _ => id) (permute σ) id t) (X i) =
      some (mapInfo c.hp (permute σ) l) at hw'
    have g1 : (predict (perpRouter (exactOps K)) c.T (mapTree c.hp (fun _ => id) (permute σ) id t) X m)[i]? =
        some (c.T.predictLeaf (permute σ l.posterior)) := by
      unfold predict
      rw [predictRows_getElem? _ exact_exclusive _ _ _ _ _ _ hi, hw']
      rfl
    have g2 : (predictProba (perpRouter (exactOps K)) c.T (mapTree c.hp (fun _ => id) (permute σ) id t) X m)[i]? =
        some (some (c.T.posteriorMean (permute σ l.posterior))) := by
      unfold predictProba
      rw [predictRows_getElem? _ exact_exclusive _ _ _ _ _ _ hi, hw']
      rfl
    rw [ho]
    rw [hT] at e1 e2 g1 g2
    rw [hT]
    refine ⟨_, _, e2, g2, ⟨?_, ?_, ?_⟩, ?_⟩
    · show (clsPosteriorMean _).length = _
      simp [clsPosteriorMean, hlen]
    · show (clsPosteriorMean _).length = _
      simp [clsPosteriorMean, permute_length]
    · intro j
      show (clsPosteriorMean (permute σ l.posterior))[_]? = (clsPosteriorMean l.posterior)[_]?
      unfold clsPosteriorMean
      rw [List.getElem?_map, List.getElem?_map, (permute_perm σ _ hlen).sum_eq,
        (permute_relabelled σ _ hlen).2.2 j]
    · intro hu
      have hu' : UniqueMax l.posterior := by
        obtain ⟨a, v, ha, hmax⟩ := hu
        change (clsPosteriorMean l.posterior)[a]? = some v at ha
        unfold clsPosteriorMean at ha
        rw [List.getElem?_map, Option.map_eq_some_iff] at ha
        obtain ⟨w, hw, rfl⟩ := ha
        refine ⟨a, w, hw, fun b z hz hle => hmax b (z / l.posterior.sum) ?_ ?_⟩
        · show (clsPosteriorMean l.posterior)[b]? = _
          unfold clsPosteriorMean
          rw [List.getElem?_map, hz]; rfl
        · exact div_le_div_of_nonneg_right hle hs.le
      obtain ⟨j, ej, ej'⟩ := argmax_relab σ hlen hu'
      refine ⟨j, ?_, ?_⟩
      · rw [e1, ← ej]; rfl
      · rw [g1, ← ej']; rfl

end

theorem sample_label : ∀ i < 12, sampleY i = ((((if sampleY i = 0 then 0 else 1) : Fin 2) : Nat) : ℚ) := by
  decide +kernel

theorem betaln_symm (a b : ℝ) : realFns.betaln a b = realFns.betaln b a := by
  simp only [realFns, add_comm a b, mul_comm (Real.Gamma a)]

/-- C60 on the three-leaf sample: classes 0 and 1 exchanged. -/
example : ∃ t', fitIn { castCtx sampleCtx with
      y := fun i => (((Equiv.swap (0 : Fin 2) 1) (if sampleY i = 0 then 0 else 1) : Nat) : ℝ) }
      realSort (some (castL [1, 1])) 12 = .ok t' ∧
    ∀ addr, splitAt t' addr = splitAt (castTree sampleHp sampleTree) addr := by
  obtain ⟨t', h1, h2, -⟩ := C60_relabel_partial betaln_symm (c := castCtx sampleCtx) (prior' := castL [1, 1])
    rfl rfl rfl
    sampleReal_valid (by decide) ⟨by simp [castL], by intro a ha; simp [castL] at ha; rw [ha]; norm_num⟩
    (by simp [castCtx, castHp, sampleCtx, sampleHp])
    (Equiv.swap (0 : Fin 2) 1) (fun i => if sampleY i = 0 then 0 else 1)
    (fun i hi => by
      show ((sampleY i : ℚ) : ℝ) = _
      conv_lhs => rw [sample_label i hi]
      exact Rat.cast_natCast _) _ (fun _ _ => rfl)
    ⟨rfl, rfl, fun j => by fin_cases j <;> rfl⟩ (fun h => by cases h) sampleReal_fit
  exact ⟨t', h1, h2⟩

/-- Eight rows of class 0 at 0, three of each class at 1. -/
def tieRows : List (ℚ × ℚ) :=
  [(0, 0), (0, 0), (0, 0), (0, 0), (0, 0), (0, 0), (0, 0), (0, 0),
   (1, 0), (1, 0), (1, 0), (1, 1), (1, 1), (1, 1)]

/-- The same rows with the two classes exchanged. -/
def swapRows (rows : List (ℚ × ℚ)) : List (ℚ × ℚ) := rows.map fun r => (r.1, 1 - r.2)

theorem oneCtx_swap (rows : List (ℚ × ℚ)) (pp δ : ℚ) (b : Bool) :
    castCtx (oneCtx (swapRows rows) pp δ b) =
      { castCtx (oneCtx rows pp δ b) with y := (castCtx (oneCtx (swapRows rows) pp δ b)).y } := by
  have : (castCtx (oneCtx (swapRows rows) pp δ b)).X = (castCtx (oneCtx rows pp δ b)).X := by
    funext i d
    simp only [castCtx, oneCtx, swapRows, List.getD_eq_getElem?_getD, List.getElem?_map]
    cases rows[i]? <;> rfl
  unfold castCtx at this ⊢
  simp only at this
  rw [this]
  rfl

/-- Classes of the rows. -/
def tieLabel (i : Nat) : Fin 2 := if 11 ≤ i then 1 else 0

theorem tie_label : ∀ i < 14, (oneCtx tieRows (99 / 100) 0 true).y i = ((tieLabel i : Nat) : ℚ) ∧
    (oneCtx (swapRows tieRows) (99 / 100) 0 true).y i = (((Equiv.swap (0 : Fin 2) 1) (tieLabel i) : Nat) : ℚ) := by
  decide +kernel

theorem tie_fit : fitIn (oneCtx tieRows (99 / 100) 0 true) (insArgsort (exactOps ℚ).le) (some [1, 1]) 14 =
      .ok (oneTree tieRows (99 / 100) 0 [1, 1] true) ∧
    fitIn (oneCtx (swapRows tieRows) (99 / 100) 0 true) (insArgsort (exactOps ℚ).le) (some [1, 1]) 14 =
      .ok (oneTree (swapRows tieRows) (99 / 100) 0 [1, 1] true) := by
  decide +kernel

theorem tie_split : splitAt (oneTree tieRows (99 / 100) 0 [1, 1] true) [] = none ∧
    splitAt (oneTree (swapRows tieRows) (99 / 100) 0 [1, 1] true) [] = some ⟨0, "x0", 1 / 2⟩ := by
  decide +kernel

theorem one_cast_fit {rows : List (ℚ × ℚ)} {pp δ : ℚ} {b : Bool} {n : Nat} {t : PNode ℚ ℚ ℚ (List ℚ)}
    (h : fitIn (oneCtx rows pp δ b) (insArgsort (exactOps ℚ).le) (some [1, 1]) n = .ok t)
    (hn : 0 < n) (hn' : n ≤ 2 ^ 64) (pp0 : 0 < pp) (pp1 : pp < 1) (δ0 : 0 ≤ δ) :
    fitIn (castCtx (oneCtx rows pp δ b)) realSort (some (castL [1, 1])) n =
      .ok (castTree (oneCtx rows pp δ b).hp t) :=
  cast_fit h rfl rfl rfl Nat.zero_lt_one hn hn' (le_refl _) pp0 pp1 δ0 ⟨by simp, by decide +kernel⟩
    realSort_spec

/-- C60 is false for pruned trees with ties: here exchanging the two classes (with the symmetric prior
`[1, 1]`) keeps a split that is pruned away without the exchange. -/
theorem C60_refuted : ∃ (c : Ctx ℝ ℝ (List ℝ) ℝ (List ℝ)) (n : Nat) (prior : List ℝ)
    (label : Nat → Fin 2) (y' : Nat → ℝ) (t t' : PNode ℝ ℝ ℝ (List ℝ)),
    c.o = exactOps ℝ ∧ c.T = clsTarget realFns ∧ c.pair = clsPair realFns ∧
    Valid (fun _ => True) c realSort n ∧ 0 < n ∧ GoodPrior prior ∧ c.hp.delta = 0 ∧ c.hp.prune = true ∧
    (∀ i < n, c.y i = ((label i : Nat) : ℝ)) ∧
    (∀ i < n, y' i = (((Equiv.swap (0 : Fin 2) 1) (label i) : Nat) : ℝ)) ∧
    Relabelled (Equiv.swap (0 : Fin 2) 1) prior prior ∧
    fitIn c realSort (some prior) n = .ok t ∧
    fitIn { c with y := y' } realSort (some prior) n = .ok t' ∧
    splitAt t' [] ≠ splitAt t [] := by
  have h1 := one_cast_fit tie_fit.1 (by decide) (by decide) (by decide +kernel) (by decide +kernel) (le_refl _)
  have h2 := one_cast_fit tie_fit.2 (by decide) (by decide) (by decide +kernel) (by decide +kernel) (le_refl _)
  rw [oneCtx_swap] at h2
  refine ⟨castCtx (oneCtx tieRows (99 / 100) 0 true), 14, castL [1, 1], tieLabel,
    (castCtx (oneCtx (swapRows tieRows) (99 / 100) 0 true)).y, _, _, rfl, rfl, rfl,
    castCtx_valid Nat.zero_lt_one (by decide) (le_refl _) realSort_spec, by decide,
    ⟨by simp [castL], by intro a ha; simp [castL] at ha; rw [ha]; norm_num⟩,
    by simp [castCtx, castHp, oneCtx], rfl, ?_, ?_, ⟨rfl, rfl, ?_⟩, h1, h2, ?_⟩
  · intro i hi
    show (((oneCtx tieRows (99 / 100) 0 true).y i : ℚ) : ℝ) = _
    rw [(tie_label i hi).1]
    simp
  · intro i hi
    show (((oneCtx (swapRows tieRows) (99 / 100) 0 true).y i : ℚ) : ℝ) = _
    rw [(tie_label i hi).2]
    simp
  · intro j
    fin_cases j <;> rfl
  · unfold castTree
    rw [splitAt_map, splitAt_map, tie_split.1, tie_split.2]
    simp

/-! ## C63: log-gamma scores and exact probabilities -/

section
variable {K : Type} [Field K] [LinearOrder K] [IsStrictOrderedRing K]

/-- C63: fitting with real log-gamma scores gives the tree that is found by comparing exact
Dirichlet-multinomial probabilities, computed in any subfield `K` of the reals containing data and
parameters (for example the rationals): both fits succeed, split identically, the stored scores are the
logarithms of the probabilities, and all predictions agree. -/
theorem C63_exact_scores (f : K →+* ℝ) (hf : StrictMono f) {c : Ctx K K (List K) K (List K)}
    {c' : Ctx ℝ ℝ (List ℝ) ℝ (List ℝ)} {argsort : List K → List Nat} {argsort' : List ℝ → List Nat}
    {n : Nat} {prior : List K} (ho : c.o = exactOps K) (hT : c.T = probTarget K) (hpair : c.pair = probPair)
    (ho' : c'.o = exactOps ℝ) (hT' : c'.T = clsTarget realFns) (hpair' : c'.pair = clsPair realFns)
    (hv : Valid (fun _ => True) c argsort n) (hs' : IsArgsort (exactOps ℝ).le (fun _ => True) argsort')
    (hn : 0 < n) (hX : ∀ i < n, ∀ d < c.nDim, c'.X i d = f (c.X i d)) (hy : ∀ i < n, c'.y i = f (c.y i))
    (hdim : c'.nDim = c.nDim) (hnames : c'.names = c.names) (hlen : c.nDim ≤ c.names.length)
    (hpp : c'.hp.partitionPrior = f c.hp.partitionPrior) (hδ : c'.hp.delta = f c.hp.delta)
    (hprec : c'.hp.splitPrecision = f c.hp.splitPrecision) (hprune : c'.hp.prune = c.hp.prune)
    (hprec0 : 0 ≤ c.hp.splitPrecision)
    (pp0 : 0 < c.hp.partitionPrior) (pp1 : c.hp.partitionPrior < 1) (δ0 : 0 ≤ c.hp.delta)
    (hprior : GoodPrior prior) :
    ∃ t t', fitIn c argsort (some prior) n = .ok t ∧ fitIn c' argsort' (some (prior.map f)) n = .ok t' ∧
      (∀ addr, splitAt t' addr = (splitAt t addr).map fun s => ⟨s.dim, s.name, f s.value⟩) ∧
      splits t' = (splits t).map (fun s => (⟨s.1.dim, s.1.name, f s.1.value⟩, Real.log (f s.2.1), Real.log (f s.2.2))) ∧
      ∀ (X : Nat → Nat → K) (m : Nat), predict (perpRouter c'.o) c'.T t' (fun i d => f (X i d)) m =
        (predict (perpRouter c.o) c.T t X m).map f := by
  obtain ⟨t, ht⟩ := C12_fit_terminates hv (some prior) hlen
  have hlt : ∀ a b, f a < f b ↔ a < b := fun a b => hf.lt_iff_lt
  have hle : ∀ a b, f a ≤ f b ↔ a ≤ b := fun a b => hf.le_iff_le
  have hv' : Valid (fun _ => True) c' argsort' n :=
    { ops := by
        rw [ho', hprec]
        exact exact_lawful (by rw [← map_zero f]; exact (hle _ _).2 hprec0)
      target := by rw [hT', hpair']; exact cls_lawful realFns
      sort := by rw [ho']; exact hs'
      dims := by rw [hdim]; exact hv.dims
      rows := hv.rows
      vals := fun _ _ _ _ => trivial }
  have habs : ∀ a b, |f a - f b| = f |a - b| := by
    intro a b
    rcases le_total (a - b) 0 with h | h
    · rw [abs_of_nonpos h, ← map_sub, abs_of_nonpos (by rw [← map_zero f]; exact (hle _ _).2 h), map_neg]
    · rw [abs_of_nonneg h, ← map_sub, abs_of_nonneg (by rw [← map_zero f]; exact (hle _ _).2 h)]
  have hsim := prob_sim (ok := fun _ => True) (n := n) f hf
    (fun _ v => f v) c c' hT hpair hT' hpair' hdim hnames hv.dims
    (fun i d hi hd => hX i hi d hd) (fun i hi => hy i hi)
    (by intro d a b _ _; rw [ho, ho']; simp [exactOps, hle])
    (by intro d a b _ _; rw [ho, ho', hprec]; simp [exactOps, habs, hlt])
    (by intro d a b _ _; rw [ho, ho']; simp only [exactOps, map_mul, map_add, map_div₀, map_one, map_ofNat])
    (by intro d a b _; rw [ho, ho']; simp [exactOps, hlt])
    (by intro d a b _; rw [ho, ho']; simp [exactOps, hle])
    hpp hδ pp0 pp1 δ0
  have hgp : ∀ m d, c.T.getPrior (some prior) m d = prior := fun m d => by rw [hT]; rfl
  have hf' := fit_sim hsim hv hv' hn (prior := some prior) (by rw [hgp, hT']; rfl)
    (by rw [hgp]; exact hprior) hprune (by
      intro _ p q
      rw [hT, hT']
      show ((argmax (p.map f) : Nat) : ℝ) = ((argmax (q.map f) : Nat) : ℝ) ↔
        ((argmax p : Nat) : K) = ((argmax q : Nat) : K)
      rw [argmax_map hf, argmax_map hf, Nat.cast_inj, Nat.cast_inj]) ht
  refine ⟨t, _, ht, hf', splitAt_map _ _ _ _ t, ?_, fun X m => ?_⟩
  · generalize c'.hp = hp'
    clear hf' ht
    induction t with
    | leaf i => rfl
    | split i sp l b c1 c2 ih1 ih2 =>
      simp only [mapTree, splits, List.map_cons, List.map_append, ih1, ih2]
  · apply List.ext_getElem?
    intro i
    rw [List.getElem?_map]
    by_cases hi : i < m
    · rw [ho, ho', C01_predict_descends _ _ _ _ _ hi, C01_predict_descends _ _ _ _ _ hi]
      have := descend_map (K := K) (K' := ℝ) c'.hp (fun _ v => f v) (List.map f)
        (fun s => Real.log (f s)) (fun _ => hlt) t (X i)
      rw [this, hT, hT']
      simp only [Option.map_some, Option.some.injEq]
      show ((argmax ((descend t (X i)).posterior.map f) : Nat) : ℝ) =
        f ((argmax (descend t (X i)).posterior : Nat) : K)
      rw [argmax_map hf, map_natCast]
    · rw [List.getElem?_eq_none (by unfold predict; rw [predictRows_length]; omega),
        List.getElem?_eq_none (by unfold predict; rw [predictRows_length]; omega)]
      rfl

end

/-- C63 on the sample: the rational fit decides about the real one. -/
example : ∃ t t', fitIn sampleCtx (insArgsort (exactOps ℚ).le) (some [1, 1]) 12 = .ok t ∧
    fitIn (castCtx sampleCtx) realSort (some ([1, 1].map (Rat.castHom ℝ))) 12 = .ok t' ∧
    ∀ addr, splitAt t' addr = (splitAt t addr).map fun s => ⟨s.dim, s.name, Rat.castHom ℝ s.value⟩ := by
  obtain ⟨t, t', h1, h2, h3, -⟩ := C63_exact_scores (Rat.castHom ℝ) castHom_strictMono (c := sampleCtx)
    (c' := castCtx sampleCtx) rfl rfl rfl rfl rfl rfl sample_valid realSort_spec (by decide)
    (fun _ _ _ _ => rfl) (fun _ _ => rfl) rfl rfl (by decide) rfl rfl rfl rfl (le_refl _)
    (by decide +kernel) (by decide +kernel) (le_refl _) (prior := [1, 1]) ⟨by simp, by decide +kernel⟩
  exact ⟨t, t', h1, h2, h3⟩

end BT
