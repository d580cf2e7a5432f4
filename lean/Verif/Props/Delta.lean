import Verif.Spec.Delta
import Verif.Props.Child
import Verif.Props.EvidenceFit
import Verif.Props.Prune

/-!
# Predictions with any `delta`: C124
-/

namespace BT
open Spec

section
variable {F : Fns ℝ} {P O : Type} {T : Target ℝ P ℝ O} {ml : P → List ℝ → ℝ} {post : P → List ℝ → P}
  {hp : Hyper ℝ} {argsort : List ℝ → List Nat} {X : Nat → Nat → ℝ} {y : Nat → ℝ} {n nDim : Nat}
  {names : List String} {prior : P} {t : PNode ℝ ℝ ℝ P}

theorem delta_prior (hT : CodeTarget F T ml post) (hr : Training hp argsort n nDim)
    (h : perpFitRoot (exactOps ℝ) T argsort hp (some prior) X y n nDim names = .ok t) {ok : P → Prop} (h0 : ok prior)
    (hok : ∀ ys p, ok p → ok (T.posterior ys p hp.delta)) {f : P → ℝ} {φ : ℝ → ℝ}
    (hf : ∀ ys p, ok p → f (T.posterior ys p hp.delta) = f p + hp.delta * (ys.map φ).sum)
    (addr : List Bool) : ∀ u, nodeAt t addr = some u → ∃ p, u.info.prior = some p ∧ ok p ∧
      f p = f prior + hp.delta *
        ∑ j ∈ Finset.range addr.length, ((rowsAt X t n (addr.take (j + 1))).map fun i => φ (y i)).sum := by
  have hv := hr.valid hT (X := X) (y := y) (names := names)
  induction addr using List.reverseRecOn with
  | nil =>
    intro u hu
    rw [nodeAt_nil] at hu
    cases hu
    obtain ⟨par, pa, u0, hB, hi, -, -, hnil, -⟩ := fit_node hv h (nodeAt_nil t)
    obtain ⟨-, rfl⟩ := hnil rfl
    refine ⟨prior, ?_, h0, by simp⟩
    rw [hi]
    cases hB <;> rfl
  | append_singleton as b ih =>
    intro u hu
    rw [nodeAt_append] at hu
    cases hw : nodeAt t as with
    | none => rw [hw] at hu; cases hu
    | some w =>
      rw [hw] at hu
      cases w with
      | leaf i => cases hu
      | split i sp l s c1 c2 =>
        obtain ⟨p, hp1, hp2, hp3⟩ := ih _ hw
        have hp1 : i.prior = some p := hp1
        have hg := C19_child_prior hv h as i sp l s c1 c2 hw
        rw [hp1, routed_eq, routed_eq] at hg
        have hgp : T.getPrior (some p) i.nData nDim = p := hT.textbook.prior _ _ _
        have hg' : u.info.prior = some (T.posterior ((rowsAt X t n (as ++ [b])).map y) p hp.delta) := by
          by_cases hδ : hp.delta = 0
          · obtain ⟨e1, e2⟩ := hg.1 hδ
            rw [hδ, hT.deltaZero]
            cases b
            · have hu : nodeAt c1 [] = some u := hu
              rw [nodeAt_nil] at hu
              cases hu
              exact e1.trans (congrArg some hgp)
            · have hu : nodeAt c2 [] = some u := hu
              rw [nodeAt_nil] at hu
              cases hu
              exact e2.trans (congrArg some hgp)
          · obtain ⟨e1, e2⟩ := hg.2 hδ
            cases b
            · have hu : nodeAt c1 [] = some u := hu
              rw [nodeAt_nil] at hu
              cases hu
              exact e1.trans (congrArg (fun q => some (T.posterior _ q hp.delta)) hgp)
            · have hu : nodeAt c2 [] = some u := hu
              rw [nodeAt_nil] at hu
              cases hu
              exact e2.trans (congrArg (fun q => some (T.posterior _ q hp.delta)) hgp)
        refine ⟨_, hg', hok _ _ hp2, ?_⟩
        rw [hf _ _ hp2, hp3, List.length_append, List.length_singleton, Finset.sum_range_succ,
          List.take_of_length_le (by simp), List.map_map]
        have e : ∀ j ∈ Finset.range as.length,
            ((rowsAt X t n ((as ++ [b]).take (j + 1))).map fun i => φ (y i)).sum =
            ((rowsAt X t n (as.take (j + 1))).map fun i => φ (y i)).sum := by
          intro j hj
          rw [List.take_append_of_le_length (Finset.mem_range.1 hj)]
        rw [Finset.sum_congr rfl e]
        show _ + hp.delta * ((rowsAt X t n (as ++ [b])).map fun i => φ (y i)).sum = _
        ring

theorem delta_posterior (hT : CodeTarget F T ml post) (hr : Training hp argsort n nDim)
    (h : perpFitRoot (exactOps ℝ) T argsort hp (some prior) X y n nDim names = .ok t) {ok : P → Prop} (h0 : ok prior)
    (hok : ∀ ys p, ok p → ok (T.posterior ys p hp.delta)) {f : P → ℝ} {φ : ℝ → ℝ}
    (hf : ∀ δ, δ = hp.delta ∨ δ = 1 → ∀ ys p, ok p → f (T.posterior ys p δ) = f p + δ * (ys.map φ).sum)
    (addr : List Bool) (u : PNode ℝ ℝ ℝ P) (hu : nodeAt t addr = some u) :
    f u.info.posterior = f prior + hp.delta *
        ∑ j ∈ Finset.range (counted X y t n addr), ((rowsAt X t n (addr.take (j + 1))).map fun i => φ (y i)).sum +
      ((rowsAt X t n addr).map fun i => φ (y i)).sum := by
  have hv := hr.valid hT (X := X) (y := y) (names := names)
  have hpri := delta_prior hT hr h h0 hok (hf _ (.inl rfl))
  have hupd : ∀ ys p, ok p → f (T.posterior ys p 1) = f p + (ys.map φ).sum := by
    intro ys p hp
    rw [hf 1 (.inr rfl) _ _ hp, one_mul]
  rcases C86_which hT hr h addr u hu with ⟨hd, hcase⟩ | ⟨hd, hne, hsame⟩
  · have hm : counted X y t n addr = addr.length := by
      unfold counted
      rcases hcase with rfl | hc
      · split <;> rfl
      · rw [if_pos hc]
    obtain ⟨p, e1, e2, e3⟩ := hpri addr u hu
    have hpost : u.info.posterior = T.posterior ((rowsAt X t n addr).map y) p 1 := by
      obtain ⟨par, pa, u0, hB, hi, -⟩ := fit_node hv h hu
      rw [show ((List.range n).filter fun i => passes (perpRouter (exactCtx T (mlPair F ml) hp X y nDim names).o) t addr
        ((exactCtx T (mlPair F ml) hp X y nDim names).X i)) = rowsAt X t n addr from
        routed_eq T (mlPair F ml) hp X y nDim names t n addr] at hB
      rw [hi] at hd e1 ⊢
      cases hB with
      | direct => cases hd
      | stay =>
        have e1 : pa = some p := e1
        subst e1
        exact congrArg (fun q => T.posterior ((rowsAt X t n addr).map y) q 1) (hT.textbook.prior _ _ _)
      | split =>
        have e1 : pa = some p := e1
        subst e1
        exact congrArg (fun q => T.posterior ((rowsAt X t n addr).map y) q 1) (hT.textbook.prior _ _ _)
    rw [hpost, hupd _ _ e2, e3, hm, List.map_map]
    rfl
  · have hm : counted X y t n addr = addr.length - 1 := by
      unfold counted
      rw [if_neg]
      rintro ⟨i, hi, j, hj, hij⟩
      exact hij (hsame i hi j hj)
    have hleaf : ∃ i, u = .leaf i := by
      cases u with
      | leaf i => exact ⟨i, rfl⟩
      | split i sp l s c1 c2 =>
        exfalso
        obtain ⟨par, pa, u0, hB, hi, hs, -⟩ := fit_node hv h hu
        obtain ⟨d1, d2, rfl, -⟩ := hs _ _ _ _ _ _ rfl
        cases hB
        cases hd
    obtain ⟨i, rfl⟩ := hleaf
    obtain ⟨parent, bit, j, sp, l, b, c1, c2, rfl, hpar, hpost⟩ := (C10_leaf_update_partial hv h addr i hu).2 hd
    obtain ⟨p, e1, e2, e3⟩ := hpri parent _ hpar
    have e1 : j.prior = some p := e1
    rw [e1, routed_eq] at hpost
    have hpost : i.posterior = T.posterior ((rowsAt X t n (parent ++ [bit])).map y) p 1 :=
      hpost.trans (congrArg (fun q => T.posterior ((rowsAt X t n (parent ++ [bit])).map y) q 1) (hT.textbook.prior _ _ _))
    show f i.posterior = _
    rw [hpost, hupd _ _ e2, e3, hm, List.map_map, List.length_append, List.length_singleton, Nat.add_sub_cancel]
    have e : ∀ j ∈ Finset.range parent.length,
        ((rowsAt X t n ((parent ++ [bit]).take (j + 1))).map fun i => φ (y i)).sum =
        ((rowsAt X t n (parent.take (j + 1))).map fun i => φ (y i)).sum := by
      intro j hj
      rw [List.take_append_of_le_length (Finset.mem_range.1 hj)]
    rw [Finset.sum_congr rfl e]
    rfl

theorem rowsAt_sum (g : Nat → ℝ) (a : List Bool) :
    ((rowsAt X t n a).map g).sum = ∑ i ∈ Finset.range n, if follows t a (X i) then g i else 0 := by
  unfold rowsAt
  induction n with
  | zero => simp
  | succ n ih =>
    rw [List.range_succ, List.filter_append, List.map_append, List.sum_append, ih, Finset.sum_range_succ]
    congr 1
    by_cases hc : follows t a (X n) = true <;> simp [hc]

theorem sharedDecisions_eq (addr : List Bool) (m : Nat) (x : Nat → ℝ) : (sharedDecisions t addr m x : ℝ) =
    ∑ j ∈ Finset.range m, if follows t (addr.take (j + 1)) x then 1 else 0 := by
  unfold sharedDecisions
  induction m with
  | zero => simp
  | succ m ih =>
    rw [List.range_succ, List.filter_append, List.length_append, Finset.sum_range_succ, ← ih]
    push_cast
    congr 1
    by_cases hc : follows t (addr.take (m + 1)) x = true <;> simp [hc]

/-- The sums over the nodes on the way as one sum over the training rows. -/
theorem weights_sum (g : Nat → ℝ) (δ : ℝ) (addr : List Bool) (m : Nat) :
    δ * ∑ j ∈ Finset.range m, ((rowsAt X t n (addr.take (j + 1))).map g).sum + ((rowsAt X t n addr).map g).sum =
      ∑ i ∈ Finset.range n, rowWeight δ t addr m (X i) * g i := by
  simp only [rowsAt_sum]
  rw [Finset.sum_comm, Finset.mul_sum, ← Finset.sum_add_distrib]
  refine Finset.sum_congr rfl fun i _ => ?_
  unfold rowWeight
  rw [sharedDecisions_eq, add_mul, mul_assoc, Finset.sum_mul, add_comm]
  congr 1
  · split <;> simp
  · congr 1
    refine Finset.sum_congr rfl fun j _ => ?_
    split <;> simp

end

theorem mapIdx_add_sum (l : List ℝ) (g : Nat → ℝ) :
    (l.mapIdx fun k a => a + g k).sum = l.sum + ∑ k ∈ Finset.range l.length, g k := by
  induction l using List.reverseRecOn with
  | nil => simp
  | append_singleton l a ih =>
    rw [List.mapIdx_concat, List.sum_append, ih, List.sum_append, List.length_append, List.length_singleton,
      Finset.sum_range_succ]
    simp only [List.sum_singleton]
    ring

section
variable {F : Fns ℝ} {hp : Hyper ℝ} {argsort : List ℝ → List Nat} {X : Nat → Nat → ℝ} {n nDim : Nat}
  {names : List String}

/-- C124, classification: the posterior of every node is the prior plus the number of rows of each class, every row
counting with its weight. -/
theorem C124_classification_node {label : Nat → Nat} {prior : List ℝ} {t : PNode ℝ ℝ ℝ (List ℝ)}
    (hr : Training hp argsort n nDim)
    (h : perpFitRoot (exactOps ℝ) (clsTarget F) argsort hp (some prior) X (fun i => (label i : ℝ)) n nDim names = .ok t)
    (addr : List Bool) (u : PNode ℝ ℝ ℝ (List ℝ)) (hu : nodeAt t addr = some u) :
    u.info.posterior = prior.mapIdx fun k a => a + ∑ i ∈ Finset.range n, if label i = k then
      rowWeight hp.delta t addr (counted X (fun i => (label i : ℝ)) t n addr) (X i) else 0 := by
  have hT : CodeTarget F (clsTarget F) (dirichletMarginal F) dirichletPosterior := .classification
  have hlenQ : ∀ (ys q : List ℝ) (δ : ℝ), q.length = prior.length →
      ((clsTarget F).posterior ys q δ).length = prior.length := by
    intro ys q δ hq
    show (clsPosterior ys q δ).length = _
    unfold clsPosterior
    split <;> simp [hq]
  have hlen : u.info.posterior.length = prior.length := (fit_inv (hr.valid hT) hr.someRow h
    (fun q => q.length = prior.length) rfl (fun _ _ _ q hq => hlenQ _ q _ hq) (fun _ _ _ _ q hq => hlenQ _ q _ hq)
    addr u hu).1
  apply List.ext_getElem?
  intro k
  by_cases hk : k < prior.length
  · have hf : ∀ δ, δ = hp.delta ∨ δ = 1 → ∀ (ys p : List ℝ), p.length = prior.length →
        ((clsTarget F).posterior ys p δ).getD k 0 =
          p.getD k 0 + δ * (ys.map fun v => if v = (k : ℝ) then 1 else 0).sum := by
      intro δ _ ys p hp
      show (clsPosterior ys p δ).getD k 0 = _
      have hc : (classCount ys k : ℝ) = (ys.map fun v => if v = (k : ℝ) then (1 : ℝ) else 0).sum := by
        unfold classCount
        induction ys with
        | nil => simp
        | cons v ys ih =>
          rw [List.countP_cons, List.map_cons, List.sum_cons, ← ih]
          by_cases hv : v = (k : ℝ)
          · simp [hv, add_comm]
          · simp [hv]
      unfold clsPosterior
      split
      · next h0 => simp [h0]
      · rw [← hc]
        have hk' : k < p.length := hp ▸ hk
        simp [List.getD_eq_getElem?_getD, hk']
    have key := delta_posterior hT hr h (ok := fun q => q.length = prior.length) rfl (fun ys q hq => hlenQ ys q _ hq)
      (f := fun q => q.getD k 0) (φ := fun v => if v = (k : ℝ) then 1 else 0) hf addr u hu
    rw [add_assoc, weights_sum] at key
    have hk' : k < u.info.posterior.length := hlen ▸ hk
    rw [List.getElem?_mapIdx, List.getElem?_eq_getElem hk, List.getElem?_eq_getElem hk', Option.map_some,
      Option.some.injEq]
    simp only [List.getD_eq_getElem?_getD, List.getElem?_eq_getElem hk, List.getElem?_eq_getElem hk',
      Option.getD_some] at key
    rw [key]
    congr 1
    refine Finset.sum_congr rfl fun i _ => ?_
    by_cases hl : label i = k
    · simp [hl]
    · have : ¬ (label i : ℝ) = (k : ℝ) := by exact_mod_cast hl
      simp [hl]
  · rw [List.getElem?_eq_none (by omega), List.getElem?_eq_none (by simp; omega)]

/-- C124, regression: the posterior mean of every node is the mean of the prior mean, with weight `kappa`, and of the
targets of all training rows, with their weights. -/
theorem C124_regression_node {y : Nat → ℝ} {prior : NG ℝ} {t : PNode ℝ ℝ ℝ (NG ℝ)}
    (hr : Training hp argsort n nDim) (hδ : 0 ≤ hp.delta) (hκ : 0 < prior.kappa)
    (h : perpFitRoot (exactOps ℝ) (regTarget F) argsort hp (some prior) X y n nDim names = .ok t)
    (addr : List Bool) (u : PNode ℝ ℝ ℝ (NG ℝ)) (hu : nodeAt t addr = some u) :
    let w := fun i => rowWeight hp.delta t addr (counted X y t n addr) (X i)
    u.info.posterior.kappa = prior.kappa + ∑ i ∈ Finset.range n, w i ∧
    u.info.posterior.mu = (prior.kappa * prior.mu + ∑ i ∈ Finset.range n, w i * y i) /
      (prior.kappa + ∑ i ∈ Finset.range n, w i) := by
  intro w
  have hT : CodeTarget F (regTarget F) (ngMarginal F) Spec.ngPosterior := .regression
  have hκQ : ∀ (ys : List ℝ) (q : NG ℝ) (δ : ℝ), 0 ≤ δ → 0 < q.kappa → 0 < ((regTarget F).posterior ys q δ).kappa := by
    intro ys q δ hδ hq
    show 0 < (regPosterior ys q δ).kappa
    unfold regPosterior
    split
    · exact hq
    · show 0 < q.kappa + (ys.length : ℝ) * δ
      positivity
  have f1 : ∀ δ, δ = hp.delta ∨ δ = 1 → ∀ (ys : List ℝ) (p : NG ℝ), 0 < p.kappa →
      ((regTarget F).posterior ys p δ).kappa = p.kappa + δ * (ys.map fun _ => (1 : ℝ)).sum := by
    intro δ _ ys p _
    show (regPosterior ys p δ).kappa = _
    unfold regPosterior
    split
    · next h0 => simp [h0]
    · show p.kappa + (ys.length : ℝ) * δ = _
      simp [mul_comm]
  have f2 : ∀ δ, δ = hp.delta ∨ δ = 1 → ∀ (ys : List ℝ) (p : NG ℝ), 0 < p.kappa →
      ((regTarget F).posterior ys p δ).kappa * ((regTarget F).posterior ys p δ).mu =
        p.kappa * p.mu + δ * (ys.map fun v => v).sum := by
    intro δ hd ys p hp
    have hδ' : 0 ≤ δ := by rcases hd with rfl | rfl <;> linarith
    show (regPosterior ys p δ).kappa * (regPosterior ys p δ).mu = _
    unfold regPosterior
    split
    · next h0 => simp [h0]
    · show (p.kappa + (ys.length : ℝ) * δ) *
        ((p.kappa * p.mu + (ys.length : ℝ) * δ * ys.sum / (ys.length : ℝ)) / (p.kappa + (ys.length : ℝ) * δ)) = _
      have hpos : 0 < p.kappa + (ys.length : ℝ) * δ := by positivity
      rw [mul_div_cancel₀ _ hpos.ne', List.map_id']
      by_cases h0 : ys.length = 0
      · rw [List.length_eq_zero_iff.1 h0]; simp
      · have : (ys.length : ℝ) ≠ 0 := by exact_mod_cast h0
        rw [mul_assoc, mul_div_cancel_left₀ _ this]
  have k1 := delta_posterior hT hr h (ok := fun q => 0 < q.kappa) hκ (fun ys q hq => hκQ ys q _ hδ hq)
    (f := fun q => q.kappa) (φ := fun _ => 1) f1 addr u hu
  have k2 := delta_posterior hT hr h (ok := fun q => 0 < q.kappa) hκ (fun ys q hq => hκQ ys q _ hδ hq)
    (f := fun q => q.kappa * q.mu) (φ := fun v => v) f2 addr u hu
  rw [add_assoc, weights_sum] at k1 k2
  have k1 : u.info.posterior.kappa = prior.kappa + ∑ i ∈ Finset.range n, w i * 1 := k1
  have k2 : u.info.posterior.kappa * u.info.posterior.mu = prior.kappa * prior.mu + ∑ i ∈ Finset.range n, w i * y i := k2
  simp only [mul_one] at k1
  refine ⟨k1, ?_⟩
  have hpos : 0 < u.info.posterior.kappa := (fit_inv (hr.valid hT) hr.someRow h (fun q => 0 < q.kappa) hκ
    (fun _ _ _ q hq => hκQ _ q _ zero_le_one hq) (fun _ _ _ _ q hq => hκQ _ q _ hδ hq) addr u hu).1
  rw [← k1, ← k2, mul_div_cancel_left₀ _ hpos.ne']

/-- C124, predictions of regression trees: the prediction for a row is the weighted mean of the prior mean and of all training
targets.  A training row counts with 1 if it is in the leaf of the row, and with `delta` for every split at which both
rows go the same way, up to the first one at which they do not; if the targets in the leaf are equal, the last split
before the leaf does not count. -/
theorem C124_regression {y : Nat → ℝ} {prior : NG ℝ} {t : PNode ℝ ℝ ℝ (NG ℝ)}
    (hr : Training hp argsort n nDim) (hδ : 0 ≤ hp.delta) (hκ : 0 < prior.kappa)
    (h : perpFitRoot (exactOps ℝ) (regTarget F) argsort hp (some prior) X y n nDim names = .ok t)
    (Z : Nat → Nat → ℝ) (m i : Nat) (hi : i < m) :
    ∃ addr, follows t addr (Z i) = true ∧ (∃ l, nodeAt t addr = some (.leaf l)) ∧
      let w := fun i => rowWeight hp.delta t addr (counted X y t n addr) (X i)
      (predict (perpRouter (exactOps ℝ)) (regTarget F) t Z m)[i]? = some
        ((prior.kappa * prior.mu + ∑ i ∈ Finset.range n, w i * y i) / (prior.kappa + ∑ i ∈ Finset.range n, w i)) := by
  obtain ⟨addr, l, ha, hpass, e1, -, -⟩ := C02_exact_always_leaf (regTarget F) t Z m i hi
  refine ⟨addr, by rw [← passes_eq]; exact hpass, ⟨l, ha⟩, ?_⟩
  rw [e1]
  exact congrArg some (C124_regression_node hr hδ hκ h addr _ ha).2

/-- C124, `predict_proba` of classification trees: the weights of the training rows of each class, added to the prior and
divided by their sum. -/
theorem C124_classification {label : Nat → Nat} {prior : List ℝ} {t : PNode ℝ ℝ ℝ (List ℝ)}
    (hr : Training hp argsort n nDim)
    (h : perpFitRoot (exactOps ℝ) (clsTarget F) argsort hp (some prior) X (fun i => (label i : ℝ)) n nDim names = .ok t)
    (hl : ∀ i < n, label i < prior.length) (Z : Nat → Nat → ℝ) (m i : Nat) (hi : i < m) :
    ∃ addr row, follows t addr (Z i) = true ∧ (∃ l, nodeAt t addr = some (.leaf l)) ∧
      (predictProba (perpRouter (exactOps ℝ)) (clsTarget F) t Z m)[i]? = some (some row) ∧ row.length = prior.length ∧
      let w := fun i => rowWeight hp.delta t addr (counted X (fun i => (label i : ℝ)) t n addr) (X i)
      ∀ k (hk : k < prior.length), row[k]? = some ((prior[k] + ∑ i ∈ Finset.range n, if label i = k then w i else 0) /
        (prior.sum + ∑ i ∈ Finset.range n, w i)) := by
  obtain ⟨addr, l, ha, hpass, -, e2, -⟩ := C02_exact_always_leaf (clsTarget F) t Z m i hi
  have hpost : l.posterior = _ := C124_classification_node hr h addr _ ha
  refine ⟨addr, _, by rw [← passes_eq]; exact hpass, ⟨l, ha⟩, e2, ?_, ?_⟩
  · show (clsPosteriorMean l.posterior).length = _
    rw [hpost]
    simp [clsPosteriorMean]
  · intro w k hk
    show (clsPosteriorMean l.posterior)[k]? = _
    have hsum : l.posterior.sum = prior.sum + ∑ i ∈ Finset.range n, w i := by
      rw [hpost, mapIdx_add_sum, Finset.sum_comm]
      congr 1
      refine Finset.sum_congr rfl fun i hi => ?_
      rw [Finset.sum_ite_eq, if_pos (Finset.mem_range.2 (hl i (Finset.mem_range.1 hi)))]
    unfold clsPosteriorMean
    rw [List.getElem?_map, hsum, hpost, List.getElem?_mapIdx, List.getElem?_eq_getElem hk]
    rfl

end

/-- Non-vacuity of `C124_regression`: two rows that are split, `delta` = 1/2. -/
example (Z : Nat → Nat → ℝ) (m i : Nat) (hi : i < m) : ∃ addr v,
    follows (regTree2 ⟨0, 1, 1, 1⟩ 3 4 (1 / 2) false) addr (Z i) = true ∧
    (predict (perpRouter (exactOps ℝ)) (regTarget realFns) (regTree2 ⟨0, 1, 1, 1⟩ 3 4 (1 / 2) false) Z m)[i]? = some v := by
  obtain ⟨addr, h1, -, h3⟩ := C124_regression (F := realFns) (hp := (regCtx2 ⟨0, 1, 1, 1⟩ 3 4 (1 / 2) false).hp)
    ⟨le_refl _, realSort_sorts, by decide, by decide, by decide⟩ (by show (0 : ℝ) ≤ 1 / 2; norm_num)
    (show (0 : ℝ) < 1 by norm_num) (regTree2_fit ⟨0, 1, 1, 1⟩ 3 4 (1 / 2)) Z m i hi
  exact ⟨addr, _, h1, h3⟩

/-- Non-vacuity of `C124_classification`: the sixteen rows of `deltaRows` with `delta` = 5. -/
example (Z : Nat → Nat → ℝ) (m i : Nat) (hi : i < m) : ∃ t : PNode ℝ ℝ ℝ (List ℝ), ∃ row : List ℝ,
    (predictProba (perpRouter (exactOps ℝ)) (clsTarget realFns) t Z m)[i]? = some (some row) ∧ row.length = 2 := by
  have hf : perpFitRoot (exactOps ℝ) (clsTarget realFns) realSort (castHp (oneCtx deltaRows (99 / 100) 5 false).hp)
      (some (castL [1, 1])) (castCtx (oneCtx deltaRows (99 / 100) 5 false)).X
      (castCtx (oneCtx deltaRows (99 / 100) 5 false)).y 16 1 (oneCtx deltaRows (99 / 100) 5 false).names = .ok _ :=
    cast_fit (delta_fit false) rfl rfl rfl Nat.zero_lt_one (by decide) (by decide) (le_refl _)
      (by show (0 : ℚ) < 99 / 100; decide +kernel) (by show (99 / 100 : ℚ) < 1; decide +kernel) (by decide +kernel)
      ⟨by simp, by decide +kernel⟩ realSort_spec
  have hy : (castCtx (oneCtx deltaRows (99 / 100) 5 false)).y =
      fun i => (([1, 1, 1, 0, 0, 0, 0, 0, 0, 0, 1, 1, 1, 0, 1, 1].getD i 0 : Nat) : ℝ) := by
    funext i
    by_cases hi : i < 16
    · interval_cases i <;> simp [castCtx, oneCtx, deltaRows]
    · have h1 : deltaRows.length ≤ i := by simp [deltaRows]; omega
      simp [castCtx, oneCtx, List.getD_eq_getElem?_getD, List.getElem?_eq_none h1,
        List.getElem?_eq_none (show [1, 1, 1, 0, 0, 0, 0, 0, 0, 0, 1, 1, 1, 0, 1, 1].length ≤ i by simp; omega)]
  rw [hy] at hf
  obtain ⟨addr, row, -, -, h3, h4, -⟩ := C124_classification (F := realFns)
    ⟨by show (0 : ℝ) ≤ ((0 : ℚ) : ℝ); simp, realSort_sorts, by decide, by decide, by decide⟩ hf
    (by intro i hi; interval_cases i <;> simp [castL]) Z m i hi
  exact ⟨_, row, h3, h4⟩

end BT
