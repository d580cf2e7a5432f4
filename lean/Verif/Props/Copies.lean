import Verif.Lemmas.Copies
import Verif.Props.MaxLik

/-!
# Classification trees fitted to a data set repeated many times: C96
-/

namespace BT
open Spec

section
variable {hp : Hyper ℝ} {argsort : List ℝ → List Nat} {X : Nat → Nat → ℝ} {y : Nat → ℝ} {k n nDim : Nat}
  {names : List String} {prior : List ℝ} {t : PNode ℝ ℝ ℝ (List ℝ)}

/-- C96: for every number of copies, the gain of a cut left over in a leaf is at most the log prior odds
against the cut plus logarithmic terms, divided by the number of copies. -/
theorem C96_copies (hk : 0 < k) (hr : Training hp argsort (k * n) nDim) (hpr : hp.prune = false)
    (hδ : hp.delta = 0) (hprior : ProperDirichlet prior) (hl : ∀ i < n, ∃ c < prior.length, y i = (c : ℝ))
    (h : perpFitRoot (exactOps ℝ) (clsTarget realFns) argsort hp (some prior) (repeated n X) (repeated n y) (k * n)
      nDim names = .ok t)
    (addr : List Bool) (i : Info ℝ (List ℝ)) (hu : nodeAt t addr = some (.leaf i)) :
    let R := rowsAt X t n addr
    let q := hp.partitionPrior ^ (addr.length + 1)
    ∀ d < nDim, ∀ a c, IsCut hp.splitPrecision X R d a c →
      let A := (R.filter fun i => X i d ≤ a).map y
      let B := (R.filter fun i => a < X i d).map y
      frequencies prior.length A = frequencies prior.length B ∨
      k * infoGain prior.length A B ≤
        Real.log (1 - q) - Real.log (q / ((cutCount hp.splitPrecision X R d : ℝ) * (nDim : ℝ))) +
          slack prior (copies k A) + slack prior (copies k B) := by
  intro R q d hd a c hac A B
  have hn : 0 < n := by
    have := hr.someRow
    exact Nat.pos_of_mul_pos_left this
  have hR := rowsAt_repeated X t k n addr
  have hR' : (rowsAt (repeated n X) t (k * n) addr).map (· % n) = copies k R := hR
  have hl' : ∀ i < k * n, ∃ c < prior.length, repeated n y i = (c : ℝ) := fun i _ => hl _ (Nat.mod_lt _ hn)
  obtain ⟨p, -, hpp, g⟩ := C95_leaf hr hpr hδ.ge hprior hl' h addr i hu
  have hpe := hpp hδ
  subst hpe
  obtain ⟨⟨i1, hi1, e1⟩, ⟨j1, hj1, f1⟩, hlt, -, hadj⟩ := id hac
  have hRne : 2 ≤ R.length := by
    rcases hRl : R with _ | ⟨r, _ | ⟨r', rs⟩⟩
    · rw [hRl] at hi1; simp at hi1
    · rw [hRl] at hi1 hj1
      simp only [List.mem_singleton] at hi1 hj1
      subst hi1; subst hj1
      rw [e1] at f1
      exact absurd f1 hlt.ne
    · simp
  rcases g with g | g | g
  · exfalso
    have := congrArg List.length hR'
    rw [List.length_map, g, length_copies] at this
    nlinarith
  · left
    have hsame : ∀ j ∈ R, ∀ l ∈ R, y j = y l := by
      intro j hj l hl2
      have h1 := (forall_repeated hk hR' fun j => ∀ l ∈ R, y j = y l).1 (fun j' hj' =>
        (forall_repeated hk hR' fun l => y (j' % n) = y l).1 fun l' hl' => g j' hj' l' hl')
      exact h1 j hj l hl2
    have key : ∀ S : List Nat, (∀ s ∈ S, s ∈ R) → S ≠ [] → ∀ j : Fin p.length,
        frequencies p.length (S.map y) j = if y i1 = ((j : Nat) : ℝ) then 1 else 0 := by
      intro S hS hS0 j
      have hrep : S.map y = List.replicate S.length (y i1) :=
        List.eq_replicate_iff.2 ⟨by simp, fun v hv => by
          obtain ⟨s, hs, rfl⟩ := List.mem_map.1 hv
          exact hsame _ (hS s hs) _ hi1⟩
      unfold frequencies count
      rw [hrep, List.length_replicate]
      have hlen : ((S.length : Nat) : ℝ) ≠ 0 := by exact_mod_cast (List.length_pos_iff.2 hS0).ne'
      by_cases hc : y i1 = ((j : Nat) : ℝ)
      · rw [if_pos hc, List.filter_eq_self.2 (fun v hv => by
          rw [List.eq_of_mem_replicate hv]; simpa using hc), List.length_replicate]
        exact div_self hlen
      · rw [if_neg hc, List.filter_eq_nil_iff.2 (fun v hv => by
          rw [List.eq_of_mem_replicate hv]; simpa using hc)]
        simp
    funext j
    rw [key _ (fun s hs => (List.mem_filter.1 hs).1) (List.ne_nil_of_mem (List.mem_filter.2 ⟨hi1, by simp [e1]⟩)),
      key _ (fun s hs => (List.mem_filter.1 hs).1)
        (List.ne_nil_of_mem (List.mem_filter.2 ⟨hj1, by simpa [f1] using hlt⟩))]
  · right
    have g' := g d hd a c ((isCut_repeated hk hR' _ X d a c).2 hac)
    have eA : ((rowsAt (repeated n X) t (k * n) addr).filter fun i => repeated n X i d ≤ a).map (repeated n y) =
        copies k A :=
      map_repeated (filter_map_repeated hR' fun i => decide (X i d ≤ a)) y
    have eB : ((rowsAt (repeated n X) t (k * n) addr).filter fun i => a < repeated n X i d).map (repeated n y) =
        copies k B :=
      map_repeated (filter_map_repeated hR' fun i => decide (a < X i d)) y
    rw [eA, eB, cutCount_repeated hk hR'] at g'
    have eG : infoGain p.length (copies k A) (copies k B) = k * infoGain p.length A B := by
      unfold infoGain
      rw [maxLogLik_perm _ (copies_append_perm k A B), maxLogLik_copies, maxLogLik_copies, maxLogLik_copies]
      ring
    rw [← eG]
    exact g'

theorem nodeAt_concat {Sp S K P : Type} {t u : Node Sp S K P} {addr : List Bool} {b : Bool}
    (h : nodeAt t (addr ++ [b]) = some u) :
    ∃ i sp l v c1 c2, nodeAt t addr = some (.split i sp l v c1 c2) := by
  rw [nodeAt_append] at h
  cases hv : nodeAt t addr with
  | none => rw [hv] at h; cases h
  | some v =>
    rw [hv] at h
    cases v with
    | leaf i => cases b <;> simp [nodeAt] at h
    | split i sp l v c1 c2 => exact ⟨i, sp, l, v, c1, c2, rfl⟩

/-- The levels of the tree and the different rows in a node: repeating rows does not make trees deeper. -/
theorem level_rows {P O : Type} {T : Target ℝ P ℝ O} {ml : P → List ℝ → ℝ} {post : P → List ℝ → P}
    {prior : P} {t : PNode ℝ ℝ ℝ P} (hT : CodeTarget realFns T ml post) (hk : 0 < k)
    (hr : Training hp argsort (k * n) nDim)
    (h : perpFitRoot (exactOps ℝ) T argsort hp (some prior) (repeated n X) (repeated n y) (k * n)
      nDim names = .ok t)
    (addr : List Bool) (u : PNode ℝ ℝ ℝ P) (hu : nodeAt t addr = some u) :
    rowsAt X t n addr ≠ [] ∧ addr.length + (rowsAt X t n addr).length ≤ n := by
  have hlen : ∀ a, (rowsAt (repeated n X) t (k * n) a).length = k * (rowsAt X t n a).length := fun a => by
    rw [← length_copies, ← rowsAt_repeated, List.length_map]
  have hne : ∀ a v, nodeAt t a = some v → rowsAt X t n a ≠ [] := by
    intro a v hv h0
    have := rowsAt_ne_nil hT hr h hv
    apply this
    rw [← List.length_eq_zero_iff, hlen, h0]
    simp
  refine ⟨hne _ _ hu, ?_⟩
  clear hne
  induction addr using List.reverseRecOn generalizing u with
  | nil =>
    have : (rowsAt X t n []).length ≤ n := by
      unfold rowsAt
      exact (List.length_filter_le _ _).trans (by simp)
    simpa using this
  | append_singleton addr b ih =>
    obtain ⟨i, sp, l, v, c1, c2, hs⟩ := nodeAt_concat hu
    have := ih _ hs
    have h1 : nodeAt t (addr ++ [false]) = some c1 := by rw [nodeAt_append, hs]; simp [nodeAt]
    have h2 : nodeAt t (addr ++ [true]) = some c2 := by rw [nodeAt_append, hs]; simp [nodeAt]
    obtain ⟨r1, r2⟩ := C13_closed_children hT hr h addr i sp l v c1 c2 hs
    have n1 := List.length_pos_iff.2 (rowsAt_ne_nil hT hr h h1)
    have n2 := List.length_pos_iff.2 (rowsAt_ne_nil hT hr h h2)
    have hsum : (rowsAt (repeated n X) t (k * n) (addr ++ [false])).length +
        (rowsAt (repeated n X) t (k * n) (addr ++ [true])).length =
        (rowsAt (repeated n X) t (k * n) addr).length := by
      rw [r1, r2, ← List.length_append]
      apply List.Perm.length_eq
      have e : ((rowsAt (repeated n X) t (k * n) addr).filter fun j => decide (sp.value ≤ repeated n X j sp.dim)) =
          (rowsAt (repeated n X) t (k * n) addr).filter fun j => !decide (repeated n X j sp.dim < sp.value) :=
        List.filter_congr fun i _ => by rw [← decide_not]; simp only [not_lt]
      rw [e]
      exact List.filter_append_perm _ _
    rw [hlen] at n1 n2 hsum
    rw [hlen, hlen, ← Nat.mul_add] at hsum
    have hsum := Nat.eq_of_mul_eq_mul_left hk hsum
    have n1 := Nat.pos_of_mul_pos_left n1
    have n2 := Nat.pos_of_mul_pos_left n2
    rw [List.length_append, List.length_singleton]
    cases b <;> omega

/-- A smallest positive number of a list. -/
theorem smallest_pos (l : List ℝ) : ∃ g > 0, ∀ x ∈ l, 0 < x → g ≤ x := by
  induction l with
  | nil => exact ⟨1, one_pos, by simp⟩
  | cons a l ih =>
    obtain ⟨g, hg, h⟩ := ih
    by_cases ha : 0 < a
    · refine ⟨min g a, lt_min hg ha, fun x hx hx0 => ?_⟩
      rcases List.mem_cons.1 hx with rfl | hx
      · exact min_le_right _ _
      · exact (min_le_left _ _).trans (h x hx hx0)
    · refine ⟨g, hg, fun x hx hx0 => ?_⟩
      rcases List.mem_cons.1 hx with rfl | hx
      · exact absurd hx0 ha
      · exact h x hx hx0

theorem log_one_add_le {x : ℝ} (hx : 0 ≤ x) : Real.log (1 + x) ≤ 2 * Real.sqrt x := by
  have h1 : (0 : ℝ) ≤ 1 + x := by linarith
  have hs : 0 < Real.sqrt (1 + x) := Real.sqrt_pos.2 (by linarith)
  have e : Real.log (1 + x) = 2 * Real.log (Real.sqrt (1 + x)) := by
    conv_lhs => rw [← Real.sq_sqrt h1]
    rw [Real.log_pow]
    push_cast
    ring
  have h2 := Real.log_le_sub_one_of_pos hs
  have h3 : Real.sqrt (1 + x) ≤ 1 + Real.sqrt x := by
    rw [Real.sqrt_le_left (by positivity)]
    nlinarith [Real.sq_sqrt hx, Real.sqrt_nonneg x]
  rw [e]
  linarith

/-- A linear function outgrows logarithms. -/
theorem linear_wins {g C : ℝ} (hg : 0 < g) {p : List ℝ} (hp : ProperDirichlet p) (n : Nat) :
    ∃ N : Nat, ∀ k : Nat, N ≤ k →
      C + 2 * (∑ j : Fin p.length, Real.log (1 + (k * n : ℝ) / p[j]) + p.sum * Real.log (1 + (k * n : ℝ))) < k * g := by
  have hpj : ∀ j : Fin p.length, 0 < p[j] := fun j => hp.2 _ (List.getElem_mem _)
  have hS := sum_pos_of_pos hp.1 hp.2
  set D : ℝ := ∑ j : Fin p.length, 2 * Real.sqrt (n / p[j]) + p.sum * (2 * Real.sqrt n) with hD
  have hD0 : 0 ≤ D := by positivity
  set E : ℝ := |C| + 2 * D with hE
  have hE0 : 0 ≤ E := by positivity
  obtain ⟨N, hN⟩ := exists_nat_gt ((E / g) ^ 2)
  refine ⟨N + 1, fun k hk => ?_⟩
  have hk1 : (1 : ℝ) ≤ k := by exact_mod_cast (by omega : 1 ≤ k)
  have hkN : (E / g) ^ 2 < k := hN.trans (by exact_mod_cast hk)
  have hs1 : 1 ≤ Real.sqrt k := Real.one_le_sqrt.2 hk1
  have hsk : Real.sqrt k * Real.sqrt k = k := Real.mul_self_sqrt (by positivity)
  have hsE : E / g < Real.sqrt k := by
    rw [← Real.sqrt_sq (by positivity : 0 ≤ E / g)]
    exact Real.sqrt_lt_sqrt (by positivity) hkN
  have hlog : ∑ j : Fin p.length, Real.log (1 + (k * n : ℝ) / p[j]) + p.sum * Real.log (1 + (k * n : ℝ)) ≤
      D * Real.sqrt k := by
    rw [hD, add_mul, Finset.sum_mul]
    apply add_le_add
    · apply Finset.sum_le_sum
      intro j _
      have := hpj j
      calc _ ≤ 2 * Real.sqrt ((k * n : ℝ) / p[j]) := log_one_add_le (by positivity)
        _ = 2 * Real.sqrt (n / p[j]) * Real.sqrt k := by
          rw [mul_div_assoc, Real.sqrt_mul (by positivity)]
          ring
    · rw [mul_assoc]
      apply mul_le_mul_of_nonneg_left _ hS.le
      calc _ ≤ 2 * Real.sqrt (k * n : ℝ) := log_one_add_le (by positivity)
        _ = 2 * Real.sqrt n * Real.sqrt k := by
          rw [Real.sqrt_mul (by positivity)]
          ring
  have h2 : E < g * Real.sqrt k := by
    rw [div_lt_iff₀ hg] at hsE
    linarith
  have hC : C ≤ |C| * Real.sqrt k := by
    calc C ≤ |C| := le_abs_self C
      _ = |C| * 1 := (mul_one _).symm
      _ ≤ _ := mul_le_mul_of_nonneg_left hs1 (abs_nonneg C)
  calc _ ≤ |C| * Real.sqrt k + 2 * (D * Real.sqrt k) := by linarith
    _ = E * Real.sqrt k := by rw [hE]; ring
    _ < g * Real.sqrt k * Real.sqrt k := mul_lt_mul_of_pos_right h2 (by linarith)
    _ = k * g := by rw [mul_assoc, hsk]; ring

theorem cutCount_le (prec : ℝ) (X : Nat → Nat → ℝ) (R : List Nat) (d : Nat) : cutCount prec X R d ≤ R.length := by
  unfold cutCount
  calc _ ≤ ((R.map fun i => X i d).dedup).length := List.length_filter_le _ _
    _ ≤ (R.map fun i => X i d).length := (List.dedup_sublist _).length_le
    _ = R.length := List.length_map _

/-- C96: fitted to sufficiently many copies of a data set, an unpruned classification tree leaves nothing to
be learnt by one further split: every cut of the rows in a leaf has the same class frequencies on both
sides. -/
theorem C96_learns (X : Nat → Nat → ℝ) (y : Nat → ℝ) (n nDim : Nat) (hpr : hp.prune = false) (hδ : hp.delta = 0)
    (hpp : 0 < hp.partitionPrior) (hpp1 : hp.partitionPrior < 1)
    (hprior : ProperDirichlet prior) (hl : ∀ i < n, ∃ c < prior.length, y i = (c : ℝ)) :
    ∃ N : Nat, ∀ (k : Nat) (argsort : List ℝ → List Nat) (names : List String) (t : PNode ℝ ℝ ℝ (List ℝ)), N ≤ k →
      Training hp argsort (k * n) nDim →
      perpFitRoot (exactOps ℝ) (clsTarget realFns) argsort hp (some prior) (repeated n X) (repeated n y) (k * n)
        nDim names = .ok t →
      ∀ (addr : List Bool) (i : Info ℝ (List ℝ)), nodeAt t addr = some (.leaf i) →
        ∀ d < nDim, ∀ a c, IsCut hp.splitPrecision X (rowsAt X t n addr) d a c →
          frequencies prior.length (((rowsAt X t n addr).filter fun i => X i d ≤ a).map y) =
            frequencies prior.length (((rowsAt X t n addr).filter fun i => a < X i d).map y) := by
  classical
  set gains : List ℝ := (List.range n).sublists.flatMap fun R => (List.range nDim).flatMap fun d =>
    (List.range n).map fun r => infoGain prior.length ((R.filter fun i => X i d ≤ X r d).map y)
      ((R.filter fun i => X r d < X i d).map y) with hgains
  obtain ⟨g, hg, hmin⟩ := smallest_pos gains
  obtain ⟨N, hN⟩ := linear_wins (C := Real.log (n * nDim) - n * Real.log hp.partitionPrior) hg hprior n
  refine ⟨N + 1, fun k argsort names t hk hr h addr i hu d hd a c hac => ?_⟩
  have hk0 : 0 < k := by omega
  have hn : 0 < n := Nat.pos_of_mul_pos_left hr.someRow
  set R := rowsAt X t n addr with hR
  rcases C96_copies hk0 hr hpr hδ hprior hl h addr i hu d hd a c hac with hf | hb
  · exact hf
  by_contra hne
  obtain ⟨hRne, hlev⟩ := level_rows .classification hk0 hr h addr _ hu
  rw [← hR] at hlev hRne
  have hRpos := List.length_pos_iff.2 hRne
  have hRn : ∀ i ∈ R, i < n := rowsAt_lt
  obtain ⟨⟨r, hrR, hra⟩, ⟨r', hrR', hrc⟩, hlt, -, -⟩ := id hac
  set A := (R.filter fun i => decide (X i d ≤ a)).map y with hA
  set B := (R.filter fun i => decide (a < X i d)).map y with hB
  have hA0 : A ≠ [] := by
    rw [hA, Ne, List.map_eq_nil_iff]
    exact List.ne_nil_of_mem (List.mem_filter.2 ⟨hrR, by simp [hra]⟩)
  have hB0 : B ≠ [] := by
    rw [hB, Ne, List.map_eq_nil_iff]
    exact List.ne_nil_of_mem (List.mem_filter.2 ⟨hrR', by simpa [hrc] using hlt⟩)
  have hAl : LabelsBelow prior.length A := labels_map hl fun i hi => hRn i (List.mem_filter.1 hi).1
  have hBl : LabelsBelow prior.length B := labels_map hl fun i hi => hRn i (List.mem_filter.1 hi).1
  obtain ⟨hge, heq⟩ := C95_gain hAl hBl hA0 hB0
  have hpos : 0 < infoGain prior.length A B := lt_of_le_of_ne hge fun h0 => hne (heq.1 h0.symm)
  have hmem : infoGain prior.length A B ∈ gains := by
    rw [hgains, List.mem_flatMap]
    refine ⟨R, List.mem_sublists.2 List.filter_sublist, ?_⟩
    rw [List.mem_flatMap]
    refine ⟨d, List.mem_range.2 hd, ?_⟩
    rw [List.mem_map]
    exact ⟨r, List.mem_range.2 (hRn r hrR), by rw [hA, hB, hra]⟩
  have hgle := hmin _ hmem hpos
  have hlenA : A.length ≤ n := by
    rw [hA, List.length_map]
    exact (List.length_filter_le _ _).trans (by omega)
  have hlenB : B.length ≤ n := by
    rw [hB, List.length_map]
    exact (List.length_filter_le _ _).trans (by omega)
  have s1 := slack_copies_le hprior hlenA k
  have s2 := slack_copies_le hprior hlenB k
  have hw := hN k (by omega)
  set q := hp.partitionPrior ^ (addr.length + 1) with hq
  have hq0 : 0 < q := pow_pos hpp _
  have hq1 : q < 1 := pow_lt_one₀ hpp.le hpp1 (by omega)
  have hlog1 : Real.log (1 - q) ≤ 0 := Real.log_nonpos (by linarith) (by linarith)
  have hcc : 0 < cutCount hp.splitPrecision X R d := by
    have := cutCount_pos hr (((isCut_repeated hk0 (rowsAt_repeated X t k n addr)) hp.splitPrecision X d a c).2 hac)
    rwa [cutCount_repeated hk0 (rowsAt_repeated X t k n addr)] at this
  have hcc0 : (0 : ℝ) < cutCount hp.splitPrecision X R d := by exact_mod_cast hcc
  have hnd : (0 : ℝ) < nDim := by exact_mod_cast hr.dims
  have hlogq : - Real.log (q / ((cutCount hp.splitPrecision X R d : ℝ) * (nDim : ℝ))) ≤
      Real.log (n * nDim) - n * Real.log hp.partitionPrior := by
    rw [Real.log_div hq0.ne' (mul_pos hcc0 hnd).ne', hq, Real.log_pow]
    have l1 : Real.log ((cutCount hp.splitPrecision X R d : ℝ) * (nDim : ℝ)) ≤ Real.log (n * nDim) := by
      apply Real.log_le_log (mul_pos hcc0 hnd)
      apply mul_le_mul_of_nonneg_right _ hnd.le
      exact_mod_cast (cutCount_le _ _ _ _).trans (by omega : R.length ≤ n)
    have l2 : Real.log hp.partitionPrior ≤ 0 := Real.log_nonpos hpp.le hpp1.le
    have l3 : ((addr.length + 1 : ℕ) : ℝ) ≤ n := by exact_mod_cast (by omega : addr.length + 1 ≤ n)
    nlinarith
  have hkg : (k : ℝ) * g ≤ k * infoGain prior.length A B := mul_le_mul_of_nonneg_left hgle (by positivity)
  have hb' : (k : ℝ) * infoGain prior.length A B ≤
        Real.log (1 - q) - Real.log (q / ((cutCount hp.splitPrecision X R d : ℝ) * (nDim : ℝ))) +
          slack prior (copies k A) + slack prior (copies k B) := hb
  linarith

/-! ### One feature -/

theorem counts_filter {m : Nat} (y : Nat → ℝ) (R : List Nat) (f : Nat → Bool) (j : Fin m) :
    count ((R.filter f).map y) j + count ((R.filter fun i => !f i).map y) j = count (R.map y) j := by
  rw [← count_append, ← List.map_append]
  exact count_perm ((List.filter_append_perm f R).map y) j

theorem lengths_filter (R : List Nat) (f : Nat → Bool) :
    (R.filter f).length + (R.filter fun i => !f i).length = R.length := by
  rw [← List.length_append]
  exact (List.filter_append_perm f R).length_eq

/-- If all cuts along the feature have the same frequencies on both sides, so do the groups of rows with
equal values. -/
theorem group_counts {m : Nat} {x : Nat → ℝ} {R : List Nat}
    (h : ∀ a c, IsCut 0 (fun i _ => x i) R 0 a c →
      frequencies m ((R.filter fun i => x i ≤ a).map y) = frequencies m ((R.filter fun i => a < x i).map y))
    {r : Nat} (hr : r ∈ R) :
    frequencies m ((R.filter fun i => x i = x r).map y) = frequencies m (R.map y) := by
  classical
  have hRpos : (0 : ℝ) < R.length := by exact_mod_cast List.length_pos_of_mem hr
  have up : ∀ s ∈ R, ∀ j : Fin m, (count ((R.filter fun i => x i ≤ x s).map y) j : ℝ) * R.length =
      count (R.map y) j * (R.filter fun i => x i ≤ x s).length := by
    intro s hs j
    by_cases hex : ∃ i ∈ R, x s < x i
    · have hne : (R.filter fun i => decide (x s < x i)).toFinset.Nonempty := by
        obtain ⟨i, hi, hlt⟩ := hex
        exact ⟨i, by simpa using ⟨hi, hlt⟩⟩
      obtain ⟨w, hw, hmin⟩ := Finset.exists_min_image _ x hne
      simp only [List.mem_toFinset, List.mem_filter, decide_eq_true_eq] at hw hmin
      have hcut : IsCut 0 (fun i _ => x i) R 0 (x s) (x w) :=
        ⟨⟨s, hs, rfl⟩, ⟨w, hw.1, rfl⟩, hw.2, sub_pos.2 hw.2, fun i hi => by
          rcases le_or_gt (x i) (x s) with h' | h'
          · exact .inl h'
          · exact .inr (hmin i ⟨hi, h'⟩)⟩
      have hf := congrFun (h _ _ hcut) j
      have e : (R.filter fun i => decide (x s < x i)) = R.filter fun i => !decide (x i ≤ x s) :=
        List.filter_congr fun i _ => by rw [← decide_not]; simp only [not_le]
      unfold frequencies at hf
      rw [e, List.length_map, List.length_map] at hf
      have c1 := counts_filter y R (fun i => decide (x i ≤ x s)) j
      have c2 := lengths_filter R (fun i => decide (x i ≤ x s))
      have p1 : (0 : ℝ) < ((R.filter fun i => decide (x i ≤ x s)).length : ℝ) := by
        exact_mod_cast List.length_pos_of_mem (List.mem_filter.2 ⟨hs, by simp⟩)
      have p2 : (0 : ℝ) < ((R.filter fun i => !decide (x i ≤ x s)).length : ℝ) := by
        exact_mod_cast List.length_pos_of_mem (List.mem_filter.2 ⟨hw.1, by simpa using hw.2⟩)
      rw [div_eq_div_iff p1.ne' p2.ne'] at hf
      rw [← c1, ← c2]
      push_cast
      linarith
    · push Not at hex
      rw [List.filter_eq_self.2 fun i hi => by simpa using hex i hi]
  have down : ∀ j : Fin m, (count ((R.filter fun i => x i < x r).map y) j : ℝ) * R.length =
      count (R.map y) j * (R.filter fun i => x i < x r).length := by
    intro j
    by_cases hex : ∃ i ∈ R, x i < x r
    · have hne : (R.filter fun i => decide (x i < x r)).toFinset.Nonempty := by
        obtain ⟨i, hi, hlt⟩ := hex
        exact ⟨i, by simpa using ⟨hi, hlt⟩⟩
      obtain ⟨w, hw, hmax⟩ := Finset.exists_max_image _ x hne
      simp only [List.mem_toFinset, List.mem_filter, decide_eq_true_eq] at hw hmax
      have e : (R.filter fun i => decide (x i < x r)) = R.filter fun i => decide (x i ≤ x w) :=
        List.filter_congr fun i hi => by
          rw [decide_eq_decide]
          exact ⟨fun h' => hmax i ⟨hi, h'⟩, fun h' => lt_of_le_of_lt h' hw.2⟩
      rw [e]
      exact up w hw.1 j
    · push Not at hex
      rw [List.filter_eq_nil_iff.2 fun i hi => by simpa using hex i hi]
      simp [count]
  have e1 : (R.filter fun i => decide (x i ≤ x r)).filter (fun i => decide (x i < x r)) =
      R.filter fun i => decide (x i < x r) := by
    rw [List.filter_filter]
    refine List.filter_congr fun i _ => ?_
    rw [← Bool.decide_and, decide_eq_decide]
    exact ⟨fun h' => h'.1, fun h' => ⟨h', h'.le⟩⟩
  have e2 : (R.filter fun i => decide (x i ≤ x r)).filter (fun i => !decide (x i < x r)) =
      R.filter fun i => decide (x i = x r) := by
    rw [List.filter_filter]
    refine List.filter_congr fun i _ => ?_
    rw [← decide_not, ← Bool.decide_and, decide_eq_decide, not_lt]
    exact ⟨fun h' => le_antisymm h'.2 h'.1, fun h' => ⟨h'.ge, h'.le⟩⟩
  funext j
  have c1 := counts_filter y (R.filter fun i => decide (x i ≤ x r)) (fun i => decide (x i < x r)) j
  have c2 := lengths_filter (R.filter fun i => decide (x i ≤ x r)) (fun i => decide (x i < x r))
  rw [e1, e2] at c1 c2
  have u := up r hr j
  have d := down j
  have p1 : (0 : ℝ) < ((R.filter fun i => decide (x i = x r)).length : ℝ) := by
    exact_mod_cast List.length_pos_of_mem (List.mem_filter.2 ⟨hr, by simp⟩)
  unfold frequencies
  rw [List.length_map, List.length_map, div_eq_div_iff p1.ne' hRpos.ne']
  rw [← c1, ← c2] at u
  push_cast at u
  linarith

theorem follows_congr {K S P : Type} [LT K] [DecidableLT K] (t : PNode K S K P) (x x' : Nat → K)
    (h : ∀ a i sp l b c1 c2, nodeAt t a = some (.split i sp l b c1 c2) → x sp.dim = x' sp.dim) (addr : List Bool) :
    follows t addr x = follows t addr x' := by
  induction t generalizing addr with
  | leaf i => cases addr <;> simp [follows]
  | split i sp l b c1 c2 ih1 ih2 =>
    cases addr with
    | nil => simp [follows]
    | cons b' bs =>
      have e := h [] i sp l b c1 c2 (nodeAt_nil _)
      have h1 := ih1 (fun a i sp l b d1 d2 hu => h (false :: a) i sp l b d1 d2 (by simpa [nodeAt] using hu)) bs
      have h2 := ih2 (fun a i sp l b d1 d2 hu => h (true :: a) i sp l b d1 d2 (by simpa [nodeAt] using hu)) bs
      unfold follows
      rw [e, h1, h2]

/-- The relative frequencies of the classes among the first `n` rows with the same value of feature 0 as
row `r`. -/
noncomputable def sameValue (X : Nat → Nat → ℝ) (y : Nat → ℝ) (n m r : Nat) : Fin m → ℝ :=
  frequencies m (((List.range n).filter fun i => X i 0 = X r 0).map y)

/-- C96: with one feature and precision 0, the class probabilities predicted for the training rows come
arbitrarily close to the relative frequencies of the classes among the rows with the same feature value. -/
theorem C96_one_feature (X : Nat → Nat → ℝ) (y : Nat → ℝ) (n : Nat) (hpr : hp.prune = false) (hδ : hp.delta = 0)
    (hpp : 0 < hp.partitionPrior) (hpp1 : hp.partitionPrior < 1) (hprec : hp.splitPrecision = 0)
    (hprior : ProperDirichlet prior) (hl : ∀ i < n, ∃ c < prior.length, y i = (c : ℝ)) :
    ∃ N : Nat, ∀ (k : Nat) (argsort : List ℝ → List Nat) (names : List String) (t : PNode ℝ ℝ ℝ (List ℝ)), N ≤ k →
      Training hp argsort (k * n) 1 →
      perpFitRoot (exactOps ℝ) (clsTarget realFns) argsort hp (some prior) (repeated n X) (repeated n y) (k * n)
        1 names = .ok t →
      ∀ r < n, ∃ row, (predictProba (perpRouter (exactOps ℝ)) (clsTarget realFns) t X n)[r]? = some (some row) ∧
        row.length = prior.length ∧
        ∀ c : Fin prior.length, ∃ v, row[(c : Nat)]? = some v ∧
          |v - sameValue X y n prior.length r c| ≤ prior.sum / (prior.sum + k) := by
  obtain ⟨N, hN⟩ := C96_learns X y n 1 hpr hδ hpp hpp1 hprior hl
  refine ⟨N + 1, fun k argsort names t hk hr h r hrn => ?_⟩
  have hk0 : 0 < k := by omega
  have hT : CodeTarget realFns (clsTarget realFns) (dirichletMarginal realFns) dirichletPosterior := .classification
  obtain ⟨addr, l, ha, hpass, -, e2, -⟩ := C02_exact_always_leaf (clsTarget realFns) t X n r hrn
  rw [passes_eq] at hpass
  set R := rowsAt X t n addr with hR
  have hrR : r ∈ R := List.mem_filter.2 ⟨List.mem_range.2 hrn, hpass⟩
  have hfreq := group_counts (m := prior.length) (y := y) (x := fun i => X i 0) (R := R) (fun a c hac =>
    hN k argsort names t (by omega) hr h addr l ha 0 one_pos a c (by rw [hprec]; exact hac)) hrR
  have hgroup : (R.filter fun i => decide (X i 0 = X r 0)) =
      (List.range n).filter fun i => decide (X i 0 = X r 0) := by
    rw [hR]
    unfold rowsAt
    rw [List.filter_filter]
    refine List.filter_congr fun i _ => ?_
    by_cases he : X i 0 = X r 0
    · have : follows t addr (X i) = true := by
        rw [← hpass]
        refine follows_congr t _ _ (fun a i' sp l' b c1 c2 hu => ?_) addr
        obtain ⟨-, -, -, -, hd, -, -⟩ := C13_closed hT hr h a i' sp l' b c1 c2 hu
        have : sp.dim = 0 := by omega
        rw [this, he]
      simp [he, this]
    · simp [he]
  have hsame : sameValue X y n prior.length r = frequencies prior.length (R.map y) := by
    unfold sameValue
    rw [← hfreq, ← hgroup]
  have hpost : l.posterior = _ := C09_closed hT hr hδ h addr _ ha
  rw [map_repeated (rowsAt_repeated X t k n addr)] at hpost
  have hS := sum_pos_of_pos hprior.1 hprior.2
  have hlenp : l.posterior.length = prior.length := by rw [hpost]; simp [dirichletPosterior]
  have hRl : LabelsBelow prior.length (R.map y) := labels_map hl rowsAt_lt
  have hsum : l.posterior.sum = prior.sum + k * R.length := by
    rw [hpost]
    unfold dirichletPosterior
    rw [sum_mapIdx_add, sum_range_fin]
    simp only [count_copies, ← Finset.mul_sum]
    rw [sum_counts hRl, List.length_map]
    push_cast
    rfl
  refine ⟨_, e2, ?_, fun c => ⟨(prior[c] + (k * count (R.map y) c : ℕ)) / (prior.sum + k * R.length), ?_, ?_⟩⟩
  · show (clsPosteriorMean l.posterior).length = _
    rw [clsPosteriorMean, List.length_map, hlenp]
  · show (clsPosteriorMean l.posterior)[(c : Nat)]? = _
    unfold clsPosteriorMean
    rw [List.getElem?_map, hsum, hpost]
    unfold dirichletPosterior
    rw [List.getElem?_mapIdx, List.getElem?_eq_getElem c.2, Option.map_some, Option.map_some, count_copies]
    rfl
  · rw [hsame]
    have hRpos : (1 : ℝ) ≤ R.length := by exact_mod_cast List.length_pos_of_mem hrR
    have hkp : (0 : ℝ) < k := by exact_mod_cast hk0
    have hα : 0 < prior[c] := hprior.2 _ (List.getElem_mem _)
    have hαS : prior[c] ≤ prior.sum := le_sum_of_mem (fun a ha => (hprior.2 a ha).le) (List.getElem_mem _)
    unfold frequencies
    rw [List.length_map]
    set ct : ℝ := (count (R.map y) c : ℝ) with hct
    have hct0 : 0 ≤ ct := by positivity
    have hct1 : ct ≤ R.length := by
      have : count (R.map y) c ≤ (R.map y).length := List.length_filter_le _ _
      rw [List.length_map] at this
      rw [hct]
      exact_mod_cast this
    have hf1 : ct / R.length ≤ 1 := (div_le_one (by linarith)).2 hct1
    have hf0 : 0 ≤ ct / R.length := by positivity
    have hden : 0 < prior.sum + k * R.length := by positivity
    have e : (prior[c] + ((k * count (R.map y) c : ℕ) : ℝ)) / (prior.sum + k * R.length) - ct / R.length =
        (prior[c] - prior.sum * (ct / R.length)) / (prior.sum + k * R.length) := by
      push_cast
      rw [← hct]
      field_simp
      ring
    rw [e, abs_div, abs_of_pos hden]
    have h1 : |prior[c] - prior.sum * (ct / R.length)| ≤ prior.sum := by
      rw [abs_le]
      constructor
      · nlinarith
      · nlinarith
    have h2 : prior.sum + (k : ℝ) ≤ prior.sum + k * R.length := by nlinarith
    calc _ ≤ prior.sum / (prior.sum + k * R.length) := div_le_div_of_nonneg_right h1 hden.le
      _ ≤ _ := div_le_div_of_nonneg_left hS.le (by positivity) h2

/-- C96: with one feature, the class that is most frequent among the training rows with the feature value of
a training row is predicted for it; if rows with equal values have equal labels, all training labels are
predicted correctly. -/
theorem C96_predict (X : Nat → Nat → ℝ) (y : Nat → ℝ) (n : Nat) (hpr : hp.prune = false) (hδ : hp.delta = 0)
    (hpp : 0 < hp.partitionPrior) (hpp1 : hp.partitionPrior < 1) (hprec : hp.splitPrecision = 0)
    (hprior : ProperDirichlet prior) (hl : ∀ i < n, ∃ c < prior.length, y i = (c : ℝ)) :
    ∃ N : Nat, ∀ (k : Nat) (argsort : List ℝ → List Nat) (names : List String) (t : PNode ℝ ℝ ℝ (List ℝ)), N ≤ k →
      Training hp argsort (k * n) 1 →
      perpFitRoot (exactOps ℝ) (clsTarget realFns) argsort hp (some prior) (repeated n X) (repeated n y) (k * n)
        1 names = .ok t →
      (∀ r < n, ∀ c : Fin prior.length, (∀ c' ≠ c, sameValue X y n prior.length r c' < sameValue X y n prior.length r c) →
        (predict (perpRouter (exactOps ℝ)) (clsTarget realFns) t X n)[r]? = some ((c : Nat) : ℝ)) ∧
      ((∀ i < n, ∀ j < n, X i 0 = X j 0 → y i = y j) →
        predict (perpRouter (exactOps ℝ)) (clsTarget realFns) t X n = (List.range n).map y) := by
  obtain ⟨N, hN⟩ := C96_one_feature X y n hpr hδ hpp hpp1 hprec hprior hl
  obtain ⟨M, hM⟩ := exists_nat_gt (2 * n * prior.sum)
  refine ⟨max N M, fun k argsort names t hk hr h => ?_⟩
  have hT : CodeTarget realFns (clsTarget realFns) (dirichletMarginal realFns) dirichletPosterior := .classification
  have hS := sum_pos_of_pos hprior.1 hprior.2
  have hkM : 2 * n * prior.sum < (k : ℝ) := hM.trans_le (by exact_mod_cast (le_max_right _ _).trans hk)
  have first : ∀ r < n, ∀ c : Fin prior.length,
      (∀ c' ≠ c, sameValue X y n prior.length r c' < sameValue X y n prior.length r c) →
      (predict (perpRouter (exactOps ℝ)) (clsTarget realFns) t X n)[r]? = some ((c : Nat) : ℝ) := by
    intro r hrn c hc
    obtain ⟨row, h1, h2, h3⟩ := hN k argsort names t ((le_max_left _ _).trans hk) hr h r hrn
    obtain ⟨p, j, q, g1, g2, g3, g4, g5, -⟩ := C06_predict_argmax (F := realFns)
      (c := exactCtx (clsTarget realFns) (mlPair realFns (dirichletMarginal realFns)) hp (repeated n X) (repeated n y) 1
        names) rfl rfl (hr.valid hT) hr.someRow hprior hδ.ge h X n r hrn
    have g1' : (predictProba (perpRouter (exactOps ℝ)) (clsTarget realFns) t X n)[r]? = some (some p) := g1
    rw [h1] at g1'
    have hrow : row = p := Option.some.inj (Option.some.inj g1')
    subst hrow
    by_cases hj : j = c
    · rw [← hj]; exact g2
    exfalso
    obtain ⟨v, hv, hv'⟩ := h3 c
    obtain ⟨w, hw, hw'⟩ := h3 ⟨j, g3⟩
    have hwq : w = q := Option.some.inj (hw.symm.trans g4)
    subst hwq
    have hle : v ≤ w := g5 v (List.mem_of_getElem? hv)
    have hlt := hc ⟨j, g3⟩ (fun h' => hj (congrArg Fin.val h'))
    -- frequencies of a group of at most `n` rows differ by at least `1 / n`
    set G := ((List.range n).filter fun i => decide (X i 0 = X r 0)).map y with hG
    have hGpos : (0 : ℝ) < G.length := by
      rw [hG, List.length_map]
      exact_mod_cast List.length_pos_of_mem (List.mem_filter.2 ⟨List.mem_range.2 hrn, by simp⟩)
    have hGn : (G.length : ℝ) ≤ n := by
      rw [hG, List.length_map]
      exact_mod_cast (List.length_filter_le _ _).trans (by simp)
    have hgap : sameValue X y n prior.length r ⟨j, g3⟩ + 1 / G.length ≤ sameValue X y n prior.length r c := by
      unfold sameValue frequencies at hlt ⊢
      rw [← hG] at hlt ⊢
      rw [div_lt_div_iff_of_pos_right hGpos] at hlt
      rw [← add_div]
      apply div_le_div_of_nonneg_right _ hGpos.le
      have : count G j + 1 ≤ count G c := by exact_mod_cast hlt
      exact_mod_cast this
    rw [abs_le] at hv' hw'
    have hε : prior.sum / (prior.sum + k) < 1 / (2 * G.length) := by
      have hk0 : (0 : ℝ) ≤ k := by positivity
      rw [div_lt_div_iff₀ (by positivity) (by positivity)]
      nlinarith
    have hε2 : 1 / (2 * (G.length : ℝ)) = 1 / G.length / 2 := by field_simp
    rw [hε2] at hε
    linarith [hv'.1, hw'.2]
  refine ⟨first, fun hfun => ?_⟩
  apply List.ext_getElem?
  intro r
  rcases lt_or_ge r n with hrn | hrn
  · obtain ⟨c, hc, hyc⟩ := hl r hrn
    have := first r hrn ⟨c, hc⟩ (fun c' hc' => ?_)
    · rw [this, List.getElem?_map, List.getElem?_range hrn, Option.map_some, hyc]
    · have hrep : ((List.range n).filter fun i => decide (X i 0 = X r 0)).map y =
          List.replicate ((List.range n).filter fun i => decide (X i 0 = X r 0)).length (c : ℝ) :=
        List.eq_replicate_iff.2 ⟨by simp, fun v hv => by
          obtain ⟨s, hs, rfl⟩ := List.mem_map.1 hv
          rw [List.mem_filter] at hs
          rw [← hyc]
          exact hfun s (List.mem_range.1 hs.1) r hrn (by simpa using hs.2)⟩
      have hpos : 0 < ((List.range n).filter fun i => decide (X i 0 = X r 0)).length :=
        List.length_pos_of_mem (List.mem_filter.2 ⟨List.mem_range.2 hrn, by simp⟩)
      have hpos' : (0 : ℝ) < (((List.range n).filter fun i => decide (X i 0 = X r 0)).length : ℝ) := by
        exact_mod_cast hpos
      have hne : c ≠ (c' : Nat) := fun h' => hc' (Fin.ext h'.symm)
      unfold sameValue frequencies
      rw [hrep, List.length_replicate]
      apply div_lt_div_of_pos_right _ hpos'
      unfold count
      rw [List.filter_eq_nil_iff.2 (fun v hv => by
          rw [List.eq_of_mem_replicate hv]; simpa using hne), List.filter_eq_self.2 (fun v hv => by
          rw [List.eq_of_mem_replicate hv]; simp), List.length_replicate]
      simpa using hpos
  · have hlen : (predict (perpRouter (exactOps ℝ)) (clsTarget realFns) t X n).length = n :=
      (C01_predict_is_walk _ exact_exclusive _ t X n).1
    rw [List.getElem?_eq_none (by rw [hlen]; exact hrn), List.getElem?_eq_none (by simpa using hrn)]

end

theorem ten_copies (h : ((10 : Nat) : ℝ) * (2 * Real.log 2) ≤ Real.log (1 - (9 / 10 : ℝ) ^ (0 + 1)) -
    Real.log ((9 / 10 : ℝ) ^ (0 + 1) / (((1 : Nat) : ℝ) * ((1 : Nat) : ℝ))) + 3 * Real.log 11 + 3 * Real.log 11) :
    False := by
  have e1 : Real.log (1 - (9 / 10 : ℝ) ^ (0 + 1)) -
      Real.log ((9 / 10 : ℝ) ^ (0 + 1) / (((1 : Nat) : ℝ) * ((1 : Nat) : ℝ))) = - Real.log 9 := by
    rw [← Real.log_div (by norm_num) (by norm_num), ← Real.log_inv]
    congr 1
    norm_num
  rw [e1] at h
  have h2 : Real.log ((11 : ℝ) ^ 6) < Real.log ((2 : ℝ) ^ 20 * 9) := Real.log_lt_log (by norm_num) (by norm_num)
  rw [Real.log_mul (by norm_num) (by norm_num), Real.log_pow, Real.log_pow] at h2
  push_cast at h h2
  linarith

/-- Ten copies of two rows with different labels are enough for a split under the default parameters. -/
example : let hp : Hyper ℝ := ⟨9 / 10, 0, false, 0⟩
    let X : Nat → Nat → ℝ := fun i _ => (i : ℝ)
    let y : Nat → ℝ := fun i => (i : ℝ)
    ∃ t, perpFitRoot (exactOps ℝ) (clsTarget realFns) realSort hp (some [1, 1]) (repeated 2 X) (repeated 2 y) (10 * 2)
      1 ["x"] = .ok t ∧ t.isLeaf = false := by
  intro hp X y
  have hT : CodeTarget realFns (clsTarget realFns) (dirichletMarginal realFns) dirichletPosterior := .classification
  have hr : Training hp realSort (10 * 2) 1 := ⟨le_refl _, realSort_sorts, by decide, by decide, by decide⟩
  have hprior : ProperDirichlet [1, 1] := ⟨by simp, by simp⟩
  obtain ⟨t, ht⟩ := C12_closed hT hr (names := ["x"]) (repeated 2 X) (repeated 2 y) (some [1, 1]) (by simp)
  refine ⟨t, ht, ?_⟩
  cases t with
  | split i sp l b c1 c2 => rfl
  | leaf i =>
    exfalso
    have hl : ∀ i < 2, ∃ c < ([1, 1] : List ℝ).length, y i = (c : ℝ) := fun i hi => ⟨i, by simpa using hi, rfl⟩
    have hR : rowsAt X (.leaf i : PNode ℝ ℝ ℝ (List ℝ)) 2 [] = [0, 1] := by
      simp [rowsAt, follows, List.range_succ]
    have hcut : IsCut hp.splitPrecision X (rowsAt X (.leaf i : PNode ℝ ℝ ℝ (List ℝ)) 2 []) 0 0 1 := by
      rw [hR]
      refine ⟨⟨0, by simp, by simp [X]⟩, ⟨1, by simp, by simp [X]⟩, one_pos, by simp [hp], ?_⟩
      intro i hi
      simp only [List.mem_cons, List.not_mem_nil, or_false] at hi
      rcases hi with rfl | rfl <;> simp [X]
    have h := C96_copies (k := 10) (by omega) hr rfl rfl hprior hl ht [] i (nodeAt_nil _) 0 one_pos 0 1 hcut
    rw [hR] at h
    have eA : (List.filter (fun i => decide (X i 0 ≤ 0)) [0, 1]).map y = [0] := by simp [X, y]
    have eB : (List.filter (fun i => decide (0 < X i 0)) [0, 1]).map y = [1] := by simp [X, y]
    have hcc : cutCount hp.splitPrecision X [0, 1] 0 = 1 := by
      have e : (List.map (fun i => X i 0) [0, 1]).dedup = [0, 1] := by simp [X, List.dedup_cons_of_notMem]
      unfold cutCount
      rw [e]
      simp [X, hp]
    rw [eA, eB, hcc] at h
    rcases h with h | h
    · have := congrFun h 0
      simp [frequencies, count] at this
    · have g : infoGain ([1, 1] : List ℝ).length [0] [1] = 2 * Real.log 2 := by
        have h2 : Real.log (1 / 2) = - Real.log 2 := by rw [one_div, Real.log_inv]
        simp [infoGain, maxLogLik, labelLogLik, frequencies, Fin.sum_univ_two, count, Real.log_inv]
        ring
      have s1 : slack [1, 1] (copies 10 [(0 : ℝ)]) = 3 * Real.log 11 := by
        have c0 : count (copies 10 [(0 : ℝ)]) 0 = 10 := by rw [count_copies]; simp [count]
        have c1 : count (copies 10 [(0 : ℝ)]) 1 = 0 := by rw [count_copies]; simp [count]
        simp [slack, length_copies, Fin.sum_univ_two, c0, c1]
        norm_num
        ring
      have s2 : slack [1, 1] (copies 10 [(1 : ℝ)]) = 3 * Real.log 11 := by
        have c0 : count (copies 10 [(1 : ℝ)]) 0 = 0 := by rw [count_copies]; simp [count]
        have c1 : count (copies 10 [(1 : ℝ)]) 1 = 10 := by rw [count_copies]; simp [count]
        simp [slack, length_copies, Fin.sum_univ_two, c0, c1]
        norm_num
        ring
      rw [g, s1, s2] at h
      exact ten_copies h

end BT
