import Verif.Props.HyperClosed

/-!
# C50 for any data: which rows the score of a hyperplane split counts where
-/

namespace BT
open Spec

section
variable {F : Fns ℝ} {P O : Type} {ml : P → List ℝ → ℝ} {post : P → List ℝ → P}
  {c : HCtx ℝ P ℝ O} {n : Nat} {prior : P} {t : HNode ℝ ℝ P}

/-- C50 for any data: the stored score of a split is that of two groups into which the rows of the node are
divided, one on or below the plane and one on or above it.  If any row lies on the plane, both groups contain such a
row.
What is missing: in the tree all rows on the plane go to child 2, so the score need not be that of the children, see
`C50_refuted`. -/
theorem C50_groups_partial (hT : CodeTarget F c.T ml post) (hA : Euclidean c.A)
    (h : hFitRoot c (some prior) n = .ok t)
    (addr : List Bool) (i : Info ℝ P) (sp : HSplit ℝ) (l b : ℝ) (c1 c2 : HNode ℝ ℝ P)
    (hu : nodeAt t addr = some (.split i sp l b c1 c2)) :
    ∃ A B : List Nat, (A ++ B).Perm (hRowsAt c.X t n addr) ∧ A ≠ [] ∧ B ≠ [] ∧
      (∀ i ∈ A, planeSide sp.normal sp.origin (c.X i) ≤ 0) ∧ (∀ i ∈ B, 0 ≤ planeSide sp.normal sp.origin (c.X i)) ∧
      ((∃ i ∈ hRowsAt c.X t n addr, planeSide sp.normal sp.origin (c.X i) = 0) →
        (∃ i ∈ A, planeSide sp.normal sp.origin (c.X i) = 0) ∧ ∃ i ∈ B, planeSide sp.normal sp.origin (c.X i) = 0) ∧
      b = F.log (c.hp.partitionPrior ^ (addr.length + 1) /
          ((consideredCount c.hp.splitPrecision c.X (hRowsAt c.X t n addr) sp.normal : ℝ) * (c.nDim : ℝ)))
        + ml prior (A.map c.y) + ml prior (B.map c.y) := by
  have hs := hA.isArgsort
  obtain ⟨st, vs, hb, rfl, -, -, hse, -, -⟩ := hFit_split hT.textbook.lawful hs hT.deltaZero h hu
  rw [hPrior_root hT, ← hRowsAt_eq] at hse
  obtain ⟨pre, r, rest, -, ho, -⟩ := hse.some sp hb
  obtain ⟨k, hk, e, -, -, x, z, hx, hz, horig⟩ := ho.cut
  rw [e]
  set R := hRowsAt c.X t n addr with hR
  set q := hProblem c prior addr.length R with hq
  have hperm : (byCoordinate c.A.argsort q sp.normal).Perm R := argsort_perm_rows hs _
  have hsort : (byCoordinate c.A.argsort q sp.normal).Pairwise
      fun i j => along sp.normal (c.X i) ≤ along sp.normal (c.X j) := byCoordinate_sorted (q := q) hs sp.normal
  unfold cutScore
  generalize byCoordinate c.A.argsort q sp.normal = B at *
  have hk1 : 1 ≤ k := by
    unfold jumps at hk
    rw [List.mem_filter, decide_eq_true_eq] at hk
    exact hk.2.1
  have hkl : k < B.length := (List.getElem?_eq_some_iff.1 hz).1
  have hzB : B[k] = z := (List.getElem?_eq_some_iff.1 hz).2
  have hxB : B[k - 1] = x := (List.getElem?_eq_some_iff.1 hx).2
  have hmono : ∀ (a b : Nat) (ha : a < B.length) (hb : b < B.length), a ≤ b →
      along sp.normal (c.X B[a]) ≤ along sp.normal (c.X B[b]) := by
    intro a b ha hb hab
    rcases Nat.lt_or_eq_of_le hab with h1 | h1
    · exact List.pairwise_iff_getElem.1 hsort a b ha hb h1
    · subst h1; exact le_rfl
  have hlt : along sp.normal (c.X x) ≤ along sp.normal (c.X z) := by
    have := hmono (k - 1) k (by omega) hkl (by omega)
    rwa [hzB, hxB] at this
  have hel : ∀ j, planeSide sp.normal sp.origin (c.X j) = along sp.normal (c.X j) -
      (along sp.normal (c.X x) + along sp.normal (c.X z)) / 2 := by
    intro j
    rw [planeSide_eq]
    unfold elevation
    rw [horig, along_halfway q sp.normal (hNormal_length ho.normal)]
    rfl
  have htake : ∀ j ∈ B.take k, along sp.normal (c.X j) ≤ along sp.normal (c.X x) := by
    intro j hj
    obtain ⟨a, ha, rfl⟩ := List.mem_take_iff_getElem.1 hj
    have ha' : a < k := lt_of_lt_of_le ha (min_le_left _ _)
    have := hmono a (k - 1) (by omega) (by omega) (by omega)
    rwa [hxB] at this
  have hdrop : ∀ j ∈ B.drop k, along sp.normal (c.X z) ≤ along sp.normal (c.X j) := by
    intro j hj
    obtain ⟨a, ha, rfl⟩ := List.mem_drop_iff_getElem.1 hj
    have := hmono k (k + a) hkl (by omega) (by omega)
    rwa [hzB] at this
  have hxm : x ∈ B.take k := by
    rw [← hxB]
    exact List.mem_take_iff_getElem.2 ⟨k - 1, by omega, rfl⟩
  have hzm : z ∈ B.drop k := by
    rw [← hzB]
    exact List.mem_drop_iff_getElem.2 ⟨0, by omega, rfl⟩
  refine ⟨B.take k, B.drop k, by rwa [List.take_append_drop], List.ne_nil_of_mem hxm, List.ne_nil_of_mem hzm, ?_, ?_, ?_, ?_⟩
  · intro j hj
    rw [hel]
    have := htake j hj
    linarith
  · intro j hj
    rw [hel]
    have := hdrop j hj
    linarith
  · rintro ⟨j, hj, hj0⟩
    rw [hel] at hj0
    have hxz : along sp.normal (c.X x) = along sp.normal (c.X z) := by
      have hjB : j ∈ B.take k ++ B.drop k := by
        rw [List.take_append_drop]
        exact hperm.mem_iff.2 hj
      rcases List.mem_append.1 hjB with g | g
      · have := htake j g
        linarith
      · have := hdrop j g
        linarith
    refine ⟨⟨x, hxm, ?_⟩, z, hzm, ?_⟩ <;> rw [hel, hxz] <;> ring
  · rw [consideredCount_eq]
    rfl

/-- C50 if no row of the node lies on the plane: the stored score is that of the rows of the two children.
What is missing: rows on the plane, see `C50_refuted`. -/
theorem C50_off_plane_partial (hT : CodeTarget F c.T ml post) (hA : Euclidean c.A)
    (h : hFitRoot c (some prior) n = .ok t)
    (addr : List Bool) (i : Info ℝ P) (sp : HSplit ℝ) (l b : ℝ) (c1 c2 : HNode ℝ ℝ P)
    (hu : nodeAt t addr = some (.split i sp l b c1 c2))
    (hoff : ∀ i ∈ hRowsAt c.X t n addr, planeSide sp.normal sp.origin (c.X i) ≠ 0) :
    b = F.log (c.hp.partitionPrior ^ (addr.length + 1) /
          ((consideredCount c.hp.splitPrecision c.X (hRowsAt c.X t n addr) sp.normal : ℝ) * (c.nDim : ℝ)))
      + ml prior ((hRowsAt c.X t n (addr ++ [false])).map c.y)
      + ml prior ((hRowsAt c.X t n (addr ++ [true])).map c.y) := by
  obtain ⟨A, B, hperm, -, -, hA', hB', -, hb⟩ := C50_groups_partial hT hA h addr i sp l b c1 c2 hu
  have hlt : ∀ i ∈ A, planeSide sp.normal sp.origin (c.X i) < 0 := fun i hi =>
    lt_of_le_of_ne (hA' i hi) (hoff i (hperm.mem_iff.1 (List.mem_append_left _ hi)))
  obtain ⟨e1, e2⟩ := hRouted_snoc (c := c) (n := n) hu
  rw [← hRowsAt_eq, ← hRowsAt_eq] at e1 e2
  have f1 : (hRowsAt c.X t n (addr ++ [false])).Perm A := by
    rw [e1]
    unfold below
    simp only [← planeSide_eq]
    refine (hperm.symm.filter _).trans ?_
    rw [List.filter_append, List.filter_eq_self.2 fun j hj => decide_eq_true (hlt j hj),
      List.filter_eq_nil_iff.2 fun j hj => by rw [decide_eq_true_eq, not_lt]; exact hB' j hj, List.append_nil]
  have f2 : (hRowsAt c.X t n (addr ++ [true])).Perm B := by
    rw [e2]
    unfold above
    simp only [← planeSide_eq]
    refine (hperm.symm.filter _).trans ?_
    rw [List.filter_append, List.filter_eq_nil_iff.2 fun j hj => by rw [decide_eq_true_eq, not_le]; exact hlt j hj,
      List.filter_eq_self.2 fun j hj => decide_eq_true (hB' j hj), List.nil_append]
  rw [hb]
  exact hT.textbook.lawful.pair_perm c.hp.partitionPrior addr.length prior c.nDim
    (consideredCount c.hp.splitPrecision c.X (hRowsAt c.X t n addr) sp.normal) _ _ _ _ (f1.symm.map c.y) (f2.symm.map c.y)

end

/-- `C50_groups_partial` for the tree of `C50_refuted`: rows lie on the plane of its split, and the score counts some of
them on either side. -/
example : ∃ A B : List Nat, (A ++ B).Perm (List.range 6) ∧
    (∃ i ∈ A, planeSide (castL [1]) (castL [1]) (hTieReal.X i) = 0) ∧
    ∃ i ∈ B, planeSide (castL [1]) (castL [1]) (hTieReal.X i) = 0 := by
  obtain ⟨A, B, hp, -, -, -, -, h, -⟩ := C50_groups_partial (F := realFns) (c := hTieReal) .classification
    realArith_euclidean hTieReal_fit [] _ _ _ _ _ _ (nodeAt_nil _)
  have hR : hRowsAt hTieReal.X (castHTree (hSampleHp 0) hTieTree) 6 [] = List.range 6 := by
    unfold hRowsAt
    exact List.filter_eq_self.2 fun i _ => rfl
  rw [hR] at hp h
  obtain ⟨h1, h2⟩ := h ⟨2, by decide, by
    simp [planeSide, castSp, castL, hTieReal, castHCtx, hTieCtx]⟩
  exact ⟨A, B, hp, h1, h2⟩

end BT
