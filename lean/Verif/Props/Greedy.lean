import Verif.Props.Fit

/-!
# Properties of the greedy fit: C11 – C18, C41, C45
-/

namespace BT
open Spec

section
variable {V K P S O : Type} [LinearOrder S] [DecidableEq K] [Zero K] [One K] {ok : V → Prop}
  {c : Ctx V K P S O} {argsort : List V → List Nat} {n : Nat} {prior : Option P} {t : PNode V S K P}

theorem fit_levelled (hv : Valid ok c argsort n) (hn : 0 < n) (h : fitIn c argsort prior n = .ok t) :
    Levelled 0 t := by
  intro addr u hu
  rw [(C19_hyper hv hn h addr u hu).2, Nat.zero_add]

/-- C11: at every split the two children's `n_data_` are positive and add up to the parent's; the leaf
sizes add up to the number of training rows, and bound the number of leaves and the depth. -/
theorem C11_leaf_sizes (hv : Valid ok c argsort n) (hn : 0 < n) (h : fitIn c argsort prior n = .ok t) :
    (∀ addr i sp l b c1 c2, nodeAt t addr = some (.split i sp l b c1 c2) →
      i.nData = c1.info.nData + c2.info.nData ∧ 0 < c1.info.nData ∧ 0 < c2.info.nData) ∧
    (leafSizes t).sum = n ∧ (∀ k ∈ leafSizes t, 0 < k) ∧ t.getNLeaves ≤ n ∧ t.getDepth ≤ n - 1 := by
  have hpos : ∀ addr u, nodeAt t addr = some u → 0 < u.info.nData := fun addr u hu =>
    (fit_inv hv hn h (fun _ => True) trivial (fun _ _ _ _ _ => trivial)
      (fun _ _ _ _ _ _ => trivial) addr u hu).2.2.2.2
  have hsplit : ∀ addr i sp l b c1 c2, nodeAt t addr = some (.split i sp l b c1 c2) →
      i.nData = c1.info.nData + c2.info.nData ∧ 0 < c1.info.nData ∧ 0 < c2.info.nData := by
    intro addr i sp l b c1 c2 hu
    have h1 : nodeAt t (addr ++ [false]) = some c1 := by rw [nodeAt_append, hu]; simp [nodeAt]
    have h2 : nodeAt t (addr ++ [true]) = some c2 := by rw [nodeAt_append, hu]; simp [nodeAt]
    refine ⟨?_, hpos _ _ h1, hpos _ _ h2⟩
    obtain ⟨r1, r2, hr⟩ := routed_append hv h hu
    rw [C08_rows_routed_back hv h _ _ h1, C08_rows_routed_back hv h _ _ h2, r1, r2,
      List.filter_congr hr]
    have := C08_rows_routed_back hv h _ _ hu
    rw [show i.nData = _ from this]
    exact List.length_eq_length_filter_add _
  have hsum : (leafSizes t).sum = n := by
    rw [leafSizes_sum fun addr i sp l b c1 c2 hu => (hsplit addr i sp l b c1 c2 hu).1,
      C08_rows_routed_back hv h [] t (nodeAt_nil t)]
    simp [routed, passes]
  have hlp : ∀ k ∈ leafSizes t, 0 < k := by
    intro k hk
    obtain ⟨addr, i, hi, rfl⟩ := mem_leafSizes.1 hk
    exact hpos addr _ hi
  have hl : leaves t ≤ n := by
    rw [← leafSizes_length, ← hsum]; exact length_le_sum hlp
  refine ⟨hsplit, hsum, hlp, by rw [getNLeaves_eq]; exact hl, ?_⟩
  rw [getDepth_eq (fit_levelled hv hn h)]
  have := height_lt_leaves t
  omega

/-- C12: if there is a name for every feature, `fit` returns a tree. -/
theorem C12_fit_terminates (hv : Valid ok c argsort n) (prior : Option P)
    (hnames : c.nDim ≤ c.names.length) : ∃ t, fitIn c argsort prior n = .ok t := by
  cases hf : perpFit c.o c.T c.hp c.X c.y c.nDim c.names (n + 1) prior 0 (sortMatrix argsort c.X n c.nDim) with
  | error e =>
    have := (perpFit_error c hv.ops hv.target hv.dims (n + 1) prior 0 _ (List.range n)
      (sortMatrix_good hv.sort c.X n c.nDim hv.vals hv.rows)
      (fun i hi => hv.vals i (List.mem_range.1 hi)) (by simp) e hf).2
    omega
  | ok t =>
    unfold fitIn perpFitRoot
    rw [hf]
    cases hp : c.hp.prune with
    | false => exact ⟨t, rfl⟩
    | true => exact ⟨_, prune_eq _ _⟩

/-- C12: with too few feature names the only possible failure is `IndexError`; in particular the
recursion never runs out of its bound of `n + 1` levels. -/
theorem C12_only_index_error (hv : Valid ok c argsort n) (prior : Option P) (e : Err)
    (h : fitIn c argsort prior n = .error e) : e = .indexError ∧ c.names.length < c.nDim := by
  cases hf : perpFit c.o c.T c.hp c.X c.y c.nDim c.names (n + 1) prior 0 (sortMatrix argsort c.X n c.nDim) with
  | error e' =>
    unfold fitIn perpFitRoot at h
    rw [hf] at h
    have : e' = e := Except.error.inj h
    subst this
    exact perpFit_error c hv.ops hv.target hv.dims (n + 1) prior 0 _ (List.range n)
      (sortMatrix_good hv.sort c.X n c.nDim hv.vals hv.rows)
      (fun i hi => hv.vals i (List.mem_range.1 hi)) (by simp) e' hf
  | ok t =>
    exfalso
    unfold fitIn perpFitRoot at h
    rw [hf] at h
    cases hp : c.hp.prune with
    | false => rw [hp] at h; cases h
    | true =>
      rw [hp] at h
      have : prune c.T.predictLeaf t = .error e := h
      rw [prune_eq] at this
      cases this

/-- C12: every recursive fit works on strictly fewer rows. -/
theorem C12_children_smaller (hv : Valid ok c argsort n) (hn : 0 < n) (h : fitIn c argsort prior n = .ok t)
    (addr : List Bool) (i : Info K P) (sp : PSplit V) (l b : S) (c1 c2 : PNode V S K P)
    (hu : nodeAt t addr = some (.split i sp l b c1 c2)) :
    c1.info.nData < i.nData ∧ c2.info.nData < i.nData := by
  have := (C11_leaf_sizes hv hn h).1 addr i sp l b c1 c2 hu
  omega

/-- C13: the stored split maximises the score over all admissible cuts of all dimensions, strictly beats
not splitting, and is the first maximiser by dimension, then by threshold.  The stored log-likelihoods
are those of the node's training rows. -/
theorem C13_greedy_optimal (hv : Valid ok c argsort n) (h : fitIn c argsort prior n = .ok t)
    (addr : List Bool) (i : Info K P) (sp : PSplit V) (l b : S) (c1 c2 : PNode V S K P)
    (hu : nodeAt t addr = some (.split i sp l b c1 c2)) :
    let R := routed c t n addr
    l = c.noSplit i.prior i.level R ∧ l < b ∧ sp.dim < c.nDim ∧
    (∃ cut ∈ cuts c.o c.hp.splitPrecision c.X R sp.dim, sp.value = c.o.mid cut.1 cut.2 ∧
      b = c.score i.prior i.level R sp.dim cut ∧
      ∀ cut' ∈ cuts c.o c.hp.splitPrecision c.X R sp.dim, c.o.le cut.1 cut'.1 = false →
        c.score i.prior i.level R sp.dim cut' < b) ∧
    (∀ d' < c.nDim, ∀ cut' ∈ cuts c.o c.hp.splitPrecision c.X R d', c.score i.prior i.level R d' cut' ≤ b) ∧
    (∀ d' < sp.dim, ∀ cut' ∈ cuts c.o c.hp.splitPrecision c.X R d', c.score i.prior i.level R d' cut' < b) := by
  intro R
  obtain ⟨par', pa', u0, hB, -, hs, -⟩ := fit_node hv h hu
  obtain ⟨d1, d2, rfl, -, -⟩ := hs _ _ _ _ _ _ rfl
  cases hB with
  | split _ _ _ _ d cut name _ _ hdv hd hcut hgain hmax hfd hfc hname h1 h2 =>
    exact ⟨rfl, hgain, hd, ⟨cut, hcut, rfl, rfl, hfc⟩, hmax, hfd⟩

/-- C14: a leaf of an unpruned tree holds at most one row, or rows with one common target, or no
admissible cut beats not splitting. -/
theorem C14_unsplit_justified (hv : Valid ok c argsort n) (hpr : c.hp.prune = false)
    (h : fitIn c argsort prior n = .ok t) (addr : List Bool) (i : Info K P)
    (hu : nodeAt t addr = some (.leaf i)) :
    let R := routed c t n addr
    R.length ≤ 1 ∨ (∀ j ∈ R, ∀ k ∈ R, c.y j = c.y k) ∨
    ∀ d < c.nDim, ∀ cut ∈ cuts c.o c.hp.splitPrecision c.X R d,
      c.score i.prior i.level R d cut ≤ c.noSplit i.prior i.level R := by
  intro R
  obtain ⟨par', pa', u0, hB, -, -, hu0, -⟩ := fit_node hv h hu
  have e := hu0 hpr
  subst e
  cases hB with
  | direct par pa lv _ hs =>
    by_cases h1 : R.length ≤ 1
    · exact .inl h1
    · refine .inr (.inl fun j hj k hk => ?_)
      by_contra hne
      exact hs ⟨not_le.1 h1, j, hj, k, hk, hne⟩
  | stay par pa lv R hd hno => exact .inr (.inr hno)

/-- C15: any two sorting routines that fulfil the contract of `np.argsort` lead to the same result
(tree or exception). -/
theorem C15_ties (hv : Valid ok c argsort n) {argsort' : List V → List Nat}
    (hs : IsArgsort c.o.le ok argsort') (prior : Option P) :
    fitIn c argsort prior n = fitIn c argsort' prior n := by
  have hv' : Valid ok c argsort' n := ⟨hv.ops, hv.target, hs, hv.dims, hv.rows, hv.vals⟩
  cases h : fitIn c argsort prior n with
  | ok t =>
    obtain ⟨t0, hb, -, h0, h1⟩ := fit_cutOff hv h
    rw [fit_of_built hv' hb]
    cases hp : c.hp.prune with
    | false => rw [h0 hp]; rfl
    | true => rw [h1 hp]; rfl
  | error e =>
    cases h' : fitIn c argsort' prior n with
    | error e' => rw [(C12_only_index_error hv prior e h).1, (C12_only_index_error hv' prior e' h').1]
    | ok t =>
      exfalso
      obtain ⟨t0, hb, -⟩ := fit_cutOff hv' h'
      rw [fit_of_built hv hb] at h
      cases h

/-- `fit` reads only the first `n` rows. -/
theorem fit_rows_congr (hv : Valid ok c argsort n) {X' : Nat → Nat → V} {y' : Nat → K}
    (hX : ∀ i < n, ∀ d, X' i d = c.X i d) (hy : ∀ i < n, y' i = c.y i) {t : PNode V S K P}
    (h : fitIn c argsort prior n = .ok t) :
    ∃ t', fitIn { c with X := X', y := y' } argsort prior n = .ok t' := by
  have hv' : Valid ok { c with X := X', y := y' } argsort n :=
    ⟨hv.ops, hv.target, hv.sort, hv.dims, hv.rows, fun i hi d hd => by
      show ok (X' i d); rw [hX i hi d]; exact hv.vals i hi d hd⟩
  rcases Nat.eq_zero_or_pos n with rfl | hn
  · refine ⟨_, fit_of_built hv' (Built.stay none prior 0 (List.range 0) (by simp) ?_)⟩
    intro d hd cut hcut
    simp [cuts, column] at hcut
  · have hs : Sim ok c { c with X := X', y := y' } n (fun _ => id) id id id (fun _ => True) (fun _ => True)
        (fun _ => True) :=
      { nDim := rfl
        names := rfl
        X := fun i d hi _ => hX i hi d
        y := fun i hi => hy i hi
        le := fun _ _ _ _ _ => rfl
        gap := fun _ _ _ _ _ _ => rfl
        mid := fun _ _ _ _ _ => rfl
        lt := fun _ _ _ _ => rfl
        ge := fun _ _ _ _ => rfl
        okTarget := fun _ _ => trivial
        inj := fun _ _ _ _ e => e
        delta := Iff.rfl
        posterior1 := fun ys p _ _ _ => by simp
        posteriorD := fun _ ys p _ _ _ => by simp
        noSplit := fun lv ys p _ _ _ => by simp
        pair := fun lv p ns a b _ _ _ _ _ _ => by simp
        mono := fun _ _ _ _ => Iff.rfl }
    have := fit_sim hs hv hv' hn (prior := prior) (by simp) trivial rfl (fun _ _ _ => Iff.rfl) h
    rw [Option.map_id] at this
    exact ⟨_, this⟩

/-- C16: permuting the training rows does not change the result. -/
theorem C16_row_order (hv : Valid ok c argsort n) (σ : Nat → Nat)
    (hσ : ((List.range n).map σ).Perm (List.range n)) (prior : Option P) :
    fitIn { c with X := fun i => c.X (σ i), y := fun i => c.y (σ i) } argsort prior n =
      fitIn c argsort prior n := by
  have hσn : ∀ i < n, σ i < n := fun i hi =>
    List.mem_range.1 (hσ.mem_iff.1 (List.mem_map_of_mem (List.mem_range.2 hi)))
  have hv' : Valid ok { c with X := fun i => c.X (σ i), y := fun i => c.y (σ i) } argsort n :=
    ⟨hv.ops, hv.target, hv.sort, hv.dims, hv.rows, fun i hi d hd => hv.vals _ (hσn i hi) d hd⟩
  -- an inverse on `0..n-1`
  have hinv : ∃ τ : Nat → Nat, (∀ i < n, τ (σ i) = i) ∧ (∀ i < n, σ (τ i) = i ∧ τ i < n) := by
    have hsur : ∀ i < n, ∃ j < n, σ j = i := fun i hi => by
      obtain ⟨j, hj, e⟩ := List.mem_map.1 (hσ.mem_iff.2 (List.mem_range.2 hi))
      exact ⟨j, List.mem_range.1 hj, e⟩
    choose! τ hτ using hsur
    have hnd : ((List.range n).map σ).Nodup := hσ.nodup_iff.2 List.nodup_range
    have hinj := List.inj_on_of_nodup_map hnd
    refine ⟨τ, fun i hi => ?_, fun i hi => ⟨(hτ i hi).2, (hτ i hi).1⟩⟩
    exact hinj (List.mem_range.2 (hτ _ (hσn i hi)).1) (List.mem_range.2 hi) (hτ _ (hσn i hi)).2
  have tr : ∀ t, Built { c with X := fun i => c.X (σ i), y := fun i => c.y (σ i) } none prior 0 (List.range n) t →
      Built c none prior 0 (List.range n) t := fun t hb =>
    Built.transport hv.ops hv.target σ rfl hb _ hσ fun i hi => hv.vals i (List.mem_range.1 hi)
  cases h : fitIn { c with X := fun i => c.X (σ i), y := fun i => c.y (σ i) } argsort prior n with
  | ok t =>
    obtain ⟨t0, hb, -⟩ := fit_cutOff hv' h
    have e1 := fit_of_built hv' hb
    rw [h] at e1
    rw [fit_of_built hv (tr t0 hb), e1]
  | error e =>
    have := C12_only_index_error hv' prior e h
    cases h2 : fitIn c argsort prior n with
    | error e' => rw [this.1, (C12_only_index_error hv prior e' h2).1]
    | ok t =>
      exfalso
      obtain ⟨τ, hτ1, hτ2⟩ := hinv
      -- transport back along the inverse
      have hp : ((List.range n).map τ).Perm (List.range n) := by
        have := hσ.map τ
        rw [List.map_map] at this
        refine (this.symm.trans ?_)
        have e : (List.range n).map (τ ∘ σ) = List.range n :=
          (List.map_congr_left (g := id) fun i hi => hτ1 i (List.mem_range.1 hi)).trans (List.map_id _)
        rw [e]
      obtain ⟨t', ht'⟩ := fit_rows_congr hv (X' := fun i => c.X (σ (τ i))) (y' := fun i => c.y (σ (τ i)))
        (fun i hi d => by rw [(hτ2 i hi).1]) (fun i hi => by rw [(hτ2 i hi).1]) h2
      have hv2 : Valid ok { c with X := fun i => c.X (σ (τ i)), y := fun i => c.y (σ (τ i)) } argsort n :=
        ⟨hv.ops, hv.target, hv.sort, hv.dims, hv.rows, fun i hi d hd => by
          show ok (c.X (σ (τ i)) d); rw [(hτ2 i hi).1]; exact hv.vals i hi d hd⟩
      obtain ⟨t1, hb1, -⟩ := fit_cutOff hv2 ht'
      have hb2 : Built { c with X := fun i => c.X (σ i), y := fun i => c.y (σ i) } none prior 0 (List.range n) t1 :=
        Built.transport hv'.ops hv'.target τ rfl hb1 _ hp fun i hi => hv'.vals i (List.mem_range.1 hi)
      rw [fit_of_built hv' hb2] at h
      cases h

/-- C45: `split_feature_name_` is the name at the position `split_dimension_`. -/
theorem C45_feature_names (hv : Valid ok c argsort n) (h : fitIn c argsort prior n = .ok t)
    (addr : List Bool) (i : Info K P) (sp : PSplit V) (l b : S) (c1 c2 : PNode V S K P)
    (hu : nodeAt t addr = some (.split i sp l b c1 c2)) : c.names[sp.dim]? = some sp.name := by
  obtain ⟨par', pa', u0, hB, -, hs, -⟩ := fit_node hv h hu
  obtain ⟨d1, d2, rfl, -, -⟩ := hs _ _ _ _ _ _ rfl
  cases hB with
  | split _ _ _ _ d cut name _ _ hdv hd hcut hgain hmax hfd hfc hname h1 h2 => exact hname

end

section exact
variable {K P S O : Type} [Field K] [LinearOrder K] [IsStrictOrderedRing K] [LinearOrder S]
  {c : Ctx K K P S O} {argsort : List K → List Nat} {n : Nat} {prior : Option P} {t : PNode K S K P}

/-- The admissible cuts in exact arithmetic: pairs of observed values, nothing observed in between,
further apart than the precision. -/
theorem C13_cuts_exact {prec : K} (hp : 0 ≤ prec) (X : Nat → Nat → K) (R : List Nat) (d : Nat) (a b : K) :
    (a, b) ∈ cuts (exactOps K) prec X R d ↔
      (∃ i ∈ R, X i d = a) ∧ (∃ j ∈ R, X j d = b) ∧ a < b ∧ prec < b - a ∧
      ∀ i ∈ R, X i d ≤ a ∨ b ≤ X i d := by
  constructor
  · intro h
    obtain ⟨h1, h2, -, -, h3, h4, h5, h6⟩ := cut_values (exact_lawful hp) (fun _ _ => trivial) h
    simp only [exactOps, decide_eq_true_eq, decide_eq_false_iff_not, not_le] at h3 h4 h5 h6
    exact ⟨h1, h2, h4, by rwa [abs_of_nonneg (sub_nonneg.2 h3)] at h5, h6⟩
  · rintro ⟨h1, h2, h3, h4, h5⟩
    refine mem_cuts_of (ok := fun _ => True) (exact_lawful hp) (fun _ _ => trivial) h1 h2 ?_ ?_ ?_
    · simpa [exactOps] using h3
    · simp only [exactOps, decide_eq_true_eq]; rwa [abs_of_pos (sub_pos.2 h3)]
    · simpa [exactOps] using h5

/-- C17: every split value lies strictly between two consecutive observed values of the node's rows
that are further apart than `split_precision`, so both sides are non-empty. -/
theorem C17_strictly_between (ho : c.o = exactOps K) (hp : 0 ≤ c.hp.splitPrecision)
    (hv : Valid (fun _ => True) c argsort n) (h : fitIn c argsort prior n = .ok t)
    (addr : List Bool) (i : Info K P) (sp : PSplit K) (l b : S) (c1 c2 : PNode K S K P)
    (hu : nodeAt t addr = some (.split i sp l b c1 c2)) :
    ∃ j ∈ routed c t n addr, ∃ k ∈ routed c t n addr,
      c.X j sp.dim < sp.value ∧ sp.value < c.X k sp.dim ∧
      sp.value = (c.X j sp.dim + c.X k sp.dim) / 2 ∧
      c.hp.splitPrecision < c.X k sp.dim - c.X j sp.dim ∧
      (∀ m ∈ routed c t n addr, c.X m sp.dim ≤ c.X j sp.dim ∨ c.X k sp.dim ≤ c.X m sp.dim) ∧
      j ∈ routed c t n (addr ++ [false]) ∧ k ∈ routed c t n (addr ++ [true]) := by
  obtain ⟨-, -, -, ⟨cut, hcut, hval, -⟩, -⟩ := C13_greedy_optimal hv h addr i sp l b c1 c2 hu
  rw [ho] at hcut hval
  obtain ⟨⟨j, hj, ej⟩, ⟨k, hk, ek⟩, hlt, hg, hadj⟩ := (C13_cuts_exact hp _ _ _ cut.1 cut.2).1 hcut
  have hm : sp.value = (cut.1 + cut.2) / 2 := by
    rw [hval]; show (1 / 2) * (cut.1 + cut.2) = _; ring
  obtain ⟨r1, r2, -⟩ := routed_append hv h hu
  have l1 : cut.1 < sp.value := by rw [hm]; linarith
  have l2 : sp.value < cut.2 := by rw [hm]; linarith
  refine ⟨j, hj, k, hk, by rw [ej]; exact l1, by rw [ek]; exact l2, by rw [ej, ek]; exact hm,
    by rw [ej, ek]; exact hg, by rw [ej, ek]; exact hadj, ?_, ?_⟩
  · rw [r1, ho]
    exact List.mem_filter.2 ⟨hj, by simp only [exactOps, decide_eq_true_eq]; rw [ej]; exact l1⟩
  · rw [r2, ho]
    exact List.mem_filter.2 ⟨hk, by simp only [exactOps, decide_eq_true_eq]; rw [ek]; exact l2.le⟩

end exact

section
variable {V K P S O : Type} [LinearOrder S] [DecidableEq K] [Zero K] [One K] {ok : V → Prop}
  {c : Ctx V K P S O} {argsort : List V → List Nat} {n : Nat} {prior : Option P} {t : PNode V S K P}

/-- C18: a feature that is constant over the training rows is never split on (its importance is treated
with C26). -/
theorem C18_constant_unused (hv : Valid ok c argsort n) (h : fitIn c argsort prior n = .ok t)
    (d : Nat) (hconst : ∀ i < n, ∀ j < n, c.X i d = c.X j d)
    (addr : List Bool) (i : Info K P) (sp : PSplit V) (l b : S) (c1 c2 : PNode V S K P)
    (hu : nodeAt t addr = some (.split i sp l b c1 c2)) : sp.dim ≠ d := by
  rintro rfl
  obtain ⟨-, -, hd, ⟨cut, hcut, -⟩, -⟩ := C13_greedy_optimal hv h addr i sp l b c1 c2 hu
  have hok : ∀ i ∈ routed c t n addr, ok (c.X i sp.dim) := fun i hi =>
    hv.vals i (List.mem_range.1 (List.mem_filter.1 hi).1) _ hd
  obtain ⟨⟨j, hj, ej⟩, ⟨k, hk, ek⟩, -, -, h3, h4, -⟩ := cut_values hv.ops hok hcut
  have hlt : ∀ {m}, m ∈ routed c t n addr → m < n := fun hm => List.mem_range.1 (List.mem_filter.1 hm).1
  rw [← ej, ← ek, hconst j (hlt hj) k (hlt hk)] at h3 h4
  rw [h3] at h4; cases h4

end

/-- C41: for fewer than `2^64` rows the unsigned dtype chosen for the sort indices represents every row
number, so the cast of the argsort result is the identity. -/
theorem C41_index_dtype (n : Nat) (hn : n ≤ 2 ^ 64) (idx : List Nat) (h : ∀ i ∈ idx, i < n) :
    castIndices n idx = idx ∧ ∀ i < n, i < 2 ^ sortIndexBits n := by
  have key : ∀ i < n, i < 2 ^ sortIndexBits n := by
    intro i hi
    unfold sortIndexBits
    rw [show (1 : Nat) <<< 16 = 2 ^ 16 from rfl, show (1 : Nat) <<< 32 = 2 ^ 32 from rfl]
    split
    · omega
    · split
      · omega
      · omega
  refine ⟨?_, key⟩
  unfold castIndices
  exact (List.map_congr_left (g := id) fun i hi => Nat.mod_eq_of_lt (key i (h i hi))).trans (List.map_id _)

/-! Non-vacuity: all of the above apply to the sample with its two splits and constant second feature. -/

example : (leafSizes (castTree sampleHp sampleTree)).sum = 12 :=
  (C11_leaf_sizes sampleReal_valid (by decide) sampleReal_fit).2.1

example : ∃ t, fitIn (castCtx sampleCtx) realSort (some (castL [1, 1])) 12 = .ok t :=
  C12_fit_terminates sampleReal_valid _ (by decide)

/-- Too few names really fail. -/
example : fitIn { sampleCtx with names := [] } (insArgsort (exactOps ℚ).le) (some [1, 1]) 12 =
    .error .indexError := by decide +kernel

example : let c := sampleCtx
    c.noSplit (some [1, 1]) 1 [2, 3, 4, 5, 8, 9, 10, 11] < 27 / 5000 ∧
    ∀ d' < 2, ∀ cut' ∈ cuts c.o 0 c.X [2, 3, 4, 5, 8, 9, 10, 11] d',
      c.score (some [1, 1]) 1 [2, 3, 4, 5, 8, 9, 10, 11] d' cut' ≤ 27 / 5000 := by
  have h := C13_greedy_optimal sample_valid sampleFit_eq [true] _ _ _ _ _ _ rfl
  rw [show routed sampleCtx sampleTree 12 [true] = [2, 3, 4, 5, 8, 9, 10, 11] by decide +kernel] at h
  exact ⟨by rw [← show (19 : ℚ) / 63000 = _ from h.1]; exact h.2.1, h.2.2.2.2.1⟩

example : ∃ addr i, sampleCtx.hp.prune = false ∧ nodeAt sampleTree addr = some (.leaf i) ∧
    routed sampleCtx sampleTree 12 addr = [2, 3, 8, 9] :=
  ⟨[true, false], _, rfl, rfl, by decide +kernel⟩

/-- Two sorting routines that order ties differently. -/
example : fitIn (castCtx sampleCtx) realSort (some (castL [1, 1])) 12 =
    fitIn (castCtx sampleCtx) (stableArgsort (exactOps ℝ).le) (some (castL [1, 1])) 12 :=
  C15_ties sampleReal_valid (stableArgsort_spec (exact_lawful (le_refl (0 : ℝ)))) _

/-- Reversing the rows of the sample. -/
example : fitIn { castCtx sampleCtx with
      X := fun i => (castCtx sampleCtx).X (11 - i), y := fun i => (castCtx sampleCtx).y (11 - i) }
      realSort (some (castL [1, 1])) 12 = .ok (castTree sampleHp sampleTree) :=
  (C16_row_order sampleReal_valid (fun i => 11 - i) (by decide) _).trans sampleReal_fit

example : ∃ j ∈ routed sampleCtx sampleTree 12 [true], ∃ k ∈ routed sampleCtx sampleTree 12 [true],
    sampleCtx.X j 0 < 7 / 2 ∧ 7 / 2 < sampleCtx.X k 0 := by
  obtain ⟨j, hj, k, hk, h1, h2, -⟩ := C17_strictly_between rfl (le_refl 0) sample_valid sampleFit_eq [true]
    _ _ _ _ _ _ rfl
  exact ⟨j, hj, k, hk, h1, h2⟩

/-- Feature 1 of the sample is constant. -/
example : (∀ i < 12, ∀ j < 12, sampleCtx.X i 1 = sampleCtx.X j 1) ∧
    nodeAt sampleTree [true] ≠ none := by
  decide +kernel

example : sampleCtx.names[0]? = some "a" :=
  C45_feature_names sample_valid sampleFit_eq [] _ _ _ _ _ _ rfl

example : castIndices 70000 [69999, 0, 65536] = [69999, 0, 65536] :=
  (C41_index_dtype 70000 (by decide) _ (by decide)).1

end BT
