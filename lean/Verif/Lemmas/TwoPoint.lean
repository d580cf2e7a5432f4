import Verif.Lemmas.Optimize
import Mathlib.Logic.Function.Iterate
import Mathlib.Tactic.Linarith
import Mathlib.Tactic.NormNum

/-!
# Drawing two points of different classes
-/

set_option linter.unusedSectionVars false

namespace BT
open BT.Spec

section draws
variable {K R : Type}

/-- The generator after `i` draws of `randint(0, n)`. -/
def drawState (G : Rng R K) (n : Nat) (i : Nat) (g : R) : R := (fun g => (G.randint n g).2)^[i] g

/-- The `i`-th draw of `randint(0, n)` from now on. -/
def drawAt (G : Rng R K) (n : Nat) (i : Nat) (g : R) : Nat := (G.randint n (drawState G n i g)).1

/-- Every pair of different classes is drawn, sooner or later, in the pattern `a, a, b` — whatever the
state of the generator.  (A truly random sequence has this property with probability 1.) -/
def FairRng (G : Rng R K) : Prop :=
  ∀ n a b g, a < n → b < n → a ≠ b → ∃ k, drawAt G n k g = a ∧ drawAt G n (k + 1) g = a ∧
    drawAt G n (k + 2) g = b

theorem drawState_add (G : Rng R K) (n i j : Nat) (g : R) :
    drawState G n (i + j) g = drawState G n j (drawState G n i g) := by
  unfold drawState
  rw [Nat.add_comm, Function.iterate_add_apply]

theorem drawAt_add (G : Rng R K) (n i j : Nat) (g : R) :
    drawAt G n (i + j) g = drawAt G n j (drawState G n i g) := by
  unfold drawAt
  rw [drawState_add]

theorem drawState_succ (G : Rng R K) (n i : Nat) (g : R) :
    drawState G n (i + 1) g = (G.randint n (drawState G n i g)).2 := by
  unfold drawState
  rw [Function.iterate_succ_apply']

theorem drawOther_eq (G : Rng R K) (n c j : Nat) (h : R) (hsame : ∀ i < j, drawAt G n i h = c)
    (hdiff : drawAt G n j h ≠ c) (fuel : Nat) (hf : j < fuel) :
    drawOther G n c fuel h = .ok (drawAt G n j h, drawState G n (j + 1) h) := by
  induction j generalizing h fuel with
  | zero =>
    obtain ⟨fuel, rfl⟩ : ∃ f, fuel = f + 1 := ⟨fuel - 1, by omega⟩
    unfold drawOther
    have : (G.randint n h).1 ≠ c := hdiff
    simp only [if_neg this]
    rfl
  | succ j ih =>
    obtain ⟨fuel, rfl⟩ : ∃ f, fuel = f + 1 := ⟨fuel - 1, by omega⟩
    unfold drawOther
    have h0 : (G.randint n h).1 = c := hsame 0 (by omega)
    simp only [if_pos h0]
    have e : ∀ i, drawAt G n (i + 1) h = drawAt G n i (G.randint n h).2 := fun i => by
      rw [Nat.add_comm]; exact drawAt_add G n 1 i h
    rw [ih (G.randint n h).2 (fun i hi => by rw [← e]; exact hsame (i + 1) (by omega))
      (by rw [← e]; exact hdiff) fuel (by omega), e]
    have e2 : drawState G n (j + 1 + 1) h = drawState G n (j + 1) (G.randint n h).2 := by
      rw [Nat.add_comm (j + 1) 1]; exact drawState_add G n 1 (j + 1) h
    rw [e2]

/-- One pass of the class loop, in terms of the draws. -/
theorem drawClasses_step (G : Rng R K) (cls : List (List Nat)) (g : R) (hn : 0 < cls.length) (j : Nat)
    (hj : 0 < j) (hsame : ∀ i, 0 < i → i < j → drawAt G cls.length i g = drawAt G cls.length 0 g)
    (hdiff : drawAt G cls.length j g ≠ drawAt G cls.length 0 g) (fi f : Nat) (hfi : j < fi) :
    drawClasses G fi cls (f + 1) g =
      if (cls.getD (drawAt G cls.length 0 g) []).length = 0 ∨ (cls.getD (drawAt G cls.length j g) []).length = 0
      then drawClasses G fi cls f (drawState G cls.length (j + 1) g)
      else .ok ((cls.getD (drawAt G cls.length 0 g) [], cls.getD (drawAt G cls.length j g) []),
        drawState G cls.length (j + 1) g) := by
  obtain ⟨j, rfl⟩ : ∃ j', j = j' + 1 := ⟨j - 1, by omega⟩
  rw [drawClasses, if_neg (by omega)]
  have e : ∀ i, drawAt G cls.length (i + 1) g = drawAt G cls.length i (G.randint cls.length g).2 := fun i => by
    rw [Nat.add_comm]; exact drawAt_add G cls.length 1 i g
  have hd := drawOther_eq G cls.length (drawAt G cls.length 0 g) j (G.randint cls.length g).2
    (fun i hi => by rw [← e]; exact hsame (i + 1) (by omega) (by omega)) (by rw [← e]; exact hdiff) fi
    (by omega)
  have e2 : drawState G cls.length (j + 1 + 1) g =
      drawState G cls.length (j + 1) (G.randint cls.length g).2 := by
    rw [Nat.add_comm (j + 1) 1]; exact drawState_add G cls.length 1 (j + 1) g
  have h0 : (G.randint cls.length g).1 = drawAt G cls.length 0 g := rfl
  simp only [h0, hd]
  rw [← e, ← e2]

theorem first_diff (f : Nat → Nat) (c k : Nat) (hk : 0 < k) (h : f k ≠ c) :
    ∃ j, 0 < j ∧ j ≤ k ∧ f j ≠ c ∧ ∀ i, 0 < i → i < j → f i = c := by
  induction k using Nat.strong_induction_on with
  | _ k ih =>
    by_cases hall : ∀ i, 0 < i → i < k → f i = c
    · exact ⟨k, hk, le_refl _, h, hall⟩
    · push Not at hall
      obtain ⟨i, hi, hik, hne⟩ := hall
      obtain ⟨j, h1, h2, h3, h4⟩ := ih i hik hi hne
      exact ⟨j, h1, by omega, h3, h4⟩

/-- The class loop ends once the pattern comes up. -/
theorem drawClasses_window (G : Rng R K) (cls : List (List Nat)) (hn : 0 < cls.length) (a b : Nat)
    (hab : a ≠ b) (ha : (cls.getD a []).length ≠ 0) (hb : (cls.getD b []).length ≠ 0) (k : Nat) (g : R)
    (h0 : drawAt G cls.length k g = a) (h1 : drawAt G cls.length (k + 1) g = a)
    (h2 : drawAt G cls.length (k + 2) g = b) :
    ∃ F x, ∀ fi f, F ≤ fi → F ≤ f → drawClasses G fi cls f g = .ok x := by
  induction k using Nat.strong_induction_on generalizing g with
  | _ k ih =>
    by_cases hc : drawAt G cls.length 0 g = a
    · -- the round starts with `a`
      obtain ⟨j, hj0, hjk, hdiff, hsame⟩ := first_diff (fun i => drawAt G cls.length i g) a (k + 2) (by omega)
        (by rw [h2]; exact hab.symm)
      have hstep := drawClasses_step G cls g hn j hj0 (fun i hi hij => by rw [hc]; exact hsame i hi hij)
        (by rw [hc]; exact hdiff)
      by_cases hj : j = k + 2
      · subst hj
        refine ⟨k + 3, ((cls.getD a [], cls.getD b []), drawState G cls.length (k + 2 + 1) g),
          fun fi f hfi hf => ?_⟩
        obtain ⟨f, rfl⟩ : ∃ f', f = f' + 1 := ⟨f - 1, by omega⟩
        rw [hstep fi f (by omega), hc, h2, if_neg (by tauto)]
      · have hjk' : j < k := by
          rcases Nat.lt_or_ge j k with h | h
          · exact h
          · exfalso
            have : j = k ∨ j = k + 1 := by omega
            rcases this with rfl | rfl
            · exact hdiff h0
            · exact hdiff h1
        have sh : ∀ i, drawAt G cls.length (j + 1 + i) g =
            drawAt G cls.length i (drawState G cls.length (j + 1) g) := fun i => drawAt_add _ _ _ _ _
        obtain ⟨F, x, hF⟩ := ih (k - (j + 1)) (by omega) (drawState G cls.length (j + 1) g)
          (by rw [← sh, show j + 1 + (k - (j + 1)) = k by omega]; exact h0)
          (by rw [← sh, show j + 1 + (k - (j + 1) + 1) = k + 1 by omega]; exact h1)
          (by rw [← sh, show j + 1 + (k - (j + 1) + 2) = k + 2 by omega]; exact h2)
        by_cases hcond : (cls.getD (drawAt G cls.length 0 g) []).length = 0 ∨
            (cls.getD (drawAt G cls.length j g) []).length = 0
        · refine ⟨F + k + 3, x, fun fi f hfi hf => ?_⟩
          obtain ⟨f, rfl⟩ : ∃ f', f = f' + 1 := ⟨f - 1, by omega⟩
          rw [hstep fi f (by omega), if_pos hcond]
          exact hF fi f (by omega) (by omega)
        · refine ⟨F + k + 3, ((cls.getD (drawAt G cls.length 0 g) [], cls.getD (drawAt G cls.length j g) []),
            drawState G cls.length (j + 1) g), fun fi f hfi hf => ?_⟩
          obtain ⟨f, rfl⟩ : ∃ f', f = f' + 1 := ⟨f - 1, by omega⟩
          rw [hstep fi f (by omega), if_neg hcond]
    · -- the round starts with another class
      have hk : 0 < k := by
        rcases Nat.eq_zero_or_pos k with rfl | h
        · exact absurd h0 hc
        · exact h
      obtain ⟨j, hj0, hjk, hdiff, hsame⟩ := first_diff (fun i => drawAt G cls.length i g)
        (drawAt G cls.length 0 g) k hk (by rw [h0]; exact fun h => hc h.symm)
      have hstep := drawClasses_step G cls g hn j hj0 hsame hdiff
      have sh : ∀ i, drawAt G cls.length (j + 1 + i) g =
          drawAt G cls.length i (drawState G cls.length (j + 1) g) := fun i => drawAt_add _ _ _ _ _
      have hrest : ∃ F x, ∀ fi f, F ≤ fi → F ≤ f →
          drawClasses G fi cls f (drawState G cls.length (j + 1) g) = .ok x := by
        rcases Nat.lt_or_ge j k with h | h
        · exact ih (k - (j + 1)) (by omega) (drawState G cls.length (j + 1) g)
            (by rw [← sh, show j + 1 + (k - (j + 1)) = k by omega]; exact h0)
            (by rw [← sh, show j + 1 + (k - (j + 1) + 1) = k + 1 by omega]; exact h1)
            (by rw [← sh, show j + 1 + (k - (j + 1) + 2) = k + 2 by omega]; exact h2)
        · have hjeq : j = k := by omega
          subst hjeq
          have d0 : drawAt G cls.length 0 (drawState G cls.length (j + 1) g) = a := by
            rw [← sh]; exact h1
          have d1 : drawAt G cls.length 1 (drawState G cls.length (j + 1) g) = b := by
            rw [← sh]; exact h2
          refine ⟨2, ((cls.getD a [], cls.getD b []),
            drawState G cls.length (1 + 1) (drawState G cls.length (j + 1) g)), fun fi f hfi hf => ?_⟩
          obtain ⟨f, rfl⟩ : ∃ f', f = f' + 1 := ⟨f - 1, by omega⟩
          rw [drawClasses_step G cls _ hn 1 (by omega) (fun i h1 h2 => by omega)
            (by rw [d0, d1]; exact hab.symm) fi f (by omega), d0, d1, if_neg (by tauto)]
      obtain ⟨F, x, hF⟩ := hrest
      by_cases hcond : (cls.getD (drawAt G cls.length 0 g) []).length = 0 ∨
          (cls.getD (drawAt G cls.length j g) []).length = 0
      · refine ⟨F + k + 3, x, fun fi f hfi hf => ?_⟩
        obtain ⟨f, rfl⟩ : ∃ f', f = f' + 1 := ⟨f - 1, by omega⟩
        rw [hstep fi f (by omega), if_pos hcond]
        exact hF fi f (by omega) (by omega)
      · refine ⟨F + k + 3, ((cls.getD (drawAt G cls.length 0 g) [], cls.getD (drawAt G cls.length j g) []),
            drawState G cls.length (j + 1) g), fun fi f hfi hf => ?_⟩
        obtain ⟨f, rfl⟩ : ∃ f', f = f' + 1 := ⟨f - 1, by omega⟩
        rw [hstep fi f (by omega), if_neg hcond]

theorem drawOther_sound (G : Rng R K) (n c fuel : Nat) (g : R) {x : Nat × R}
    (h : drawOther G n c fuel g = .ok x) : x.1 ≠ c := by
  induction fuel generalizing g with
  | zero => cases h
  | succ fuel ih =>
    unfold drawOther at h
    simp only at h
    split at h
    · exact ih _ h
    · next hne => cases h; exact hne

/-- The drawn index lists belong to two different non-empty classes. -/
theorem drawClasses_sound (G : Rng R K) (fi : Nat) (cls : List (List Nat)) (f : Nat) (g : R)
    {x : (List Nat × List Nat) × R} (h : drawClasses G fi cls f g = .ok x) :
    ∃ c1 c2, c1 ≠ c2 ∧ x.1.1 = cls.getD c1 [] ∧ x.1.2 = cls.getD c2 [] ∧ x.1.1.length ≠ 0 ∧
      x.1.2.length ≠ 0 := by
  induction f generalizing g with
  | zero => cases h
  | succ f ih =>
    rw [drawClasses] at h
    split at h
    · cases h
    · dsimp only at h
      split at h
      · cases h
      · next d2 hd =>
        split at h
        · exact ih _ h
        · next hc =>
          cases h
          push Not at hc
          exact ⟨_, _, (drawOther_sound _ _ _ _ _ hd).symm, rfl, rfl, hc.1, hc.2⟩

theorem drawOther_le (G : Rng R K) (n c fuel : Nat) (g : R)
    (h : drawOther G n c fuel g ≠ .error .noTermination) :
    drawOther G n c (fuel + 1) g = drawOther G n c fuel g := by
  induction fuel generalizing g with
  | zero => exact absurd rfl h
  | succ fuel ih =>
    unfold drawOther at h ⊢
    simp only at h ⊢
    by_cases hc : (G.randint n g).1 = c
    · simp only [if_pos hc] at h ⊢
      exact ih _ h
    · simp only [if_neg hc]

theorem drawClasses_le (G : Rng R K) (fi : Nat) (cls : List (List Nat)) (f : Nat) (g : R)
    (h : drawClasses G fi cls f g ≠ .error .noTermination) :
    drawClasses G (fi + 1) cls (f + 1) g = drawClasses G fi cls f g := by
  induction f generalizing g with
  | zero => exact absurd rfl h
  | succ f ih =>
    rw [drawClasses, drawClasses]
    rw [drawClasses] at h
    by_cases hl : cls.length = 0
    · rw [if_pos hl, if_pos hl]
    · rw [if_neg hl] at h
      rw [if_neg hl, if_neg hl]
      simp only at h ⊢
      have hne : drawOther G cls.length (G.randint cls.length g).1 fi (G.randint cls.length g).2 ≠
          .error .noTermination := by
        intro he
        rw [he] at h
        exact h rfl
      rw [drawOther_le _ _ _ _ _ hne]
      cases hd : drawOther G cls.length (G.randint cls.length g).1 fi (G.randint cls.length g).2 with
      | error e => rfl
      | ok d2 =>
        rw [hd] at h
        dsimp only at h ⊢
        split
        · next hc =>
          rw [if_pos hc] at h
          exact ih _ h
        · rfl

end draws

section round
variable {K : Type} [Field K] [LinearOrder K] [IsStrictOrderedRing K] [FloorRing K]

theorem npRound_eq (x : K) : npRound x = x ↔ ∃ z : Int, x = (z : K) := by
  unfold npRound
  constructor
  · intro h
    dsimp only at h
    split at h
    · exact ⟨_, h.symm⟩
    · split at h
      · exact ⟨⌊x⌋ + 1, by push_cast; exact h.symm⟩
      · split at h
        · exact ⟨_, h.symm⟩
        · exact ⟨⌊x⌋ + 1, by push_cast; exact h.symm⟩
  · rintro ⟨z, rfl⟩
    dsimp only
    rw [if_pos]
    · simp
    · simp

theorem foldl_max_spec (l : List K) (a : K) :
    (a ≤ l.foldl max a) ∧ (∀ x ∈ l, x ≤ l.foldl max a) ∧ (l.foldl max a = a ∨ l.foldl max a ∈ l) := by
  induction l generalizing a with
  | nil => simp
  | cons x l ih =>
    obtain ⟨h1, h2, h3⟩ := ih (max a x)
    simp only [List.foldl_cons]
    refine ⟨(le_max_left a x).trans h1, ?_, ?_⟩
    · intro y hy
      rcases List.mem_cons.1 hy with rfl | hy
      · exact (le_max_right a y).trans h1
      · exact h2 y hy
    · rcases h3 with h3 | h3
      · rw [h3]
        rcases max_choice a x with h | h
        · left; exact h
        · right; rw [h]; simp
      · right; simp [h3]

theorem classIndices_getD (ys : List K) (c : Nat) (j : Nat) (h : j ∈ (classIndices ys).getD c []) :
    ys[j]? = some (c : K) := by
  unfold classIndices at h
  simp only [List.getD_eq_getElem?_getD, List.getElem?_map] at h
  cases hr : (List.range (⌊ys.foldl max (ys.getD 0 0)⌋ + 1).toNat)[c]? with
  | none =>
    rw [List.getD_eq_getElem?_getD] at hr
    rw [hr] at h
    simp at h
  | some c' =>
    have hc' : c' = c := by
      obtain ⟨h1, h2⟩ := List.getElem?_eq_some_iff.1 hr
      rw [List.getElem_range] at h2
      exact h2.symm
    subst hc'
    rw [List.getD_eq_getElem?_getD] at hr
    rw [hr] at h
    simp only [Option.map_some, Option.getD_some] at h
    unfold npWhere at h
    obtain ⟨h1, h2⟩ := List.mem_filter.1 h
    have hj : j < ys.length := by simpa using h1
    rw [List.getD_eq_getElem?_getD, List.getElem?_map, List.getElem?_eq_getElem hj] at h2
    rw [List.getElem?_eq_getElem hj]
    simp only [Option.map_some, Option.getD_some, decide_eq_true_eq] at h2
    rw [h2]

theorem classIndices_nonempty (ys : List K) (c : Nat) (h : (c : K) ∈ ys) :
    c < (classIndices ys).length ∧ ((classIndices ys).getD c []).length ≠ 0 := by
  have hmax := (foldl_max_spec ys (ys.getD 0 0)).2.1 _ h
  have hfloor : (c : Int) ≤ ⌊ys.foldl max (ys.getD 0 0)⌋ := by
    rw [Int.le_floor]
    simpa using hmax
  have hc : c < (⌊ys.foldl max (ys.getD 0 0)⌋ + 1).toNat := by omega
  have hlen : c < (classIndices ys).length := by
    unfold classIndices
    simpa using hc
  refine ⟨hlen, ?_⟩
  obtain ⟨j, hj, hje⟩ := List.getElem_of_mem h
  have : j ∈ (classIndices ys).getD c [] := by
    unfold classIndices
    simp only
    rw [List.getD_eq_getElem?_getD, List.getElem?_map, List.getElem?_range hc]
    simp only [Option.map_some, Option.getD_some]
    unfold npWhere
    refine List.mem_filter.2 ⟨by simpa using hj, ?_⟩
    rw [List.getD_eq_getElem?_getD, List.getElem?_map, List.getElem?_eq_getElem hj]
    simp [hje]
  intro h0
  rw [List.length_eq_zero_iff.1 h0] at this
  cases this

end round

section solve
variable {K P S R : Type} [Field K] [LinearOrder K] [IsStrictOrderedRing K] [FloorRing K] [LinearOrder S]

theorem rows_getD (l : List Nat) (i : Nat) (h : i < l.length) : l.getD i 0 = l[i] := by
  rw [List.getD_eq_getElem?_getD, List.getElem?_eq_getElem h, Option.getD_some]

/-- `r` is the difference of two rows of the node with different targets, pointing to the non-negative
side of the first axis. -/
def TwoPointVec (isInt : Bool) (q : HProb K P S) (r : RawVec K) : Prop :=
  ∃ i j, ∃ v : List K, i ∈ q.rows ∧ j ∈ q.rows ∧ q.y i ≠ q.y j ∧ r = ⟨isInt, v.map XF.fin⟩ ∧ v.length = q.nDim ∧
    (∀ d < q.nDim, v[d]? = some (q.X j d - q.X i d)) ∧ ∀ a, v[0]? = some a → 0 ≤ a

theorem twoPointNormal_ok (isInt : Bool) (q : HProb K P S) (hdim : 0 < q.nDim) (a b : Nat)
    (ha : a < q.rows.length) (hb : b < q.rows.length)
    (hy : q.y (q.rows.getD a 0) ≠ q.y (q.rows.getD b 0)) :
    ∃ r, twoPointNormal isInt q a b = .ok r ∧ TwoPointVec isInt q r := by
  unfold twoPointNormal
  have hlen : (List.zipWith (· - ·) (rowVec q.nDim (q.X (q.rows.getD b 0)))
      (rowVec q.nDim (q.X (q.rows.getD a 0)))).length = q.nDim := by
    simp [rowVec]
  have hget : ∀ d, d < q.nDim → (List.zipWith (· - ·) (rowVec q.nDim (q.X (q.rows.getD b 0)))
      (rowVec q.nDim (q.X (q.rows.getD a 0))))[d]? =
      some (q.X (q.rows.getD b 0) d - q.X (q.rows.getD a 0) d) := by
    intro d hd
    simp [rowVec, hd]
  have hma : q.rows.getD a 0 ∈ q.rows := by
    rw [List.getD_eq_getElem?_getD, List.getElem?_eq_getElem ha]; simp
  have hmb : q.rows.getD b 0 ∈ q.rows := by
    rw [List.getD_eq_getElem?_getD, List.getElem?_eq_getElem hb]; simp
  simp only
  rw [hget 0 hdim]
  simp only
  split
  · next hneg =>
    refine ⟨_, rfl, q.rows.getD b 0, q.rows.getD a 0, _, hmb, hma, hy.symm, rfl, ?_, ?_, ?_⟩
    · rw [List.length_map, hlen]
    · intro d hd
      rw [List.getElem?_map, hget d hd]
      simp
    · intro x hx
      rw [List.getElem?_map, hget 0 hdim] at hx
      simp only [Option.map_some, Option.some.injEq] at hx
      rw [← hx]; linarith
  · next hneg =>
    refine ⟨_, rfl, q.rows.getD a 0, q.rows.getD b 0, _, hma, hmb, hy, rfl, hlen, hget, ?_⟩
    intro x hx
    rw [hget 0 hdim] at hx
    simp only [Option.some.injEq] at hx
    rw [← hx]; exact not_lt.1 hneg

variable {G : Rng R K} {q : HProb K P S} {V : RawVec K → S → Prop} {E : Err → Prop}

/-- One pass of the Monte-Carlo loop. -/
def twoPointPass (G : Rng R K) (isInt : Bool) (fuel : Nat) (q : HProb K P S) (g : R) : Prog K S R :=
  match drawClasses G fuel (classIndices (q.rows.map q.y)) fuel g with
  | .error e => .raise e
  | .ok (ij, g) =>
    let d1 := G.randint ij.1.length g
    let d2 := G.randint ij.2.length d1.2
    match twoPointNormal isInt q (ij.1.getD d1.1 0) (ij.2.getD d2.1 0) with
    | .error e => .raise e
    | .ok r => .eval r fun _ => .ret d2.2

theorem twoPointSolve_eq (G : Rng R K) (isInt : Bool) (nMc fuel : Nat) (q : HProb K P S)
    (hint : ∀ i ∈ q.rows, ∃ z : Int, q.y i = (z : K)) (htwo : 1 < (distinct (q.rows.map q.y)).length) :
    twoPointSolve G isInt nMc fuel q =
      Prog.loop (fun g (_ : Nat) => twoPointPass G isInt fuel q g) (List.range nMc) G.init := by
  unfold twoPointSolve
  rw [if_neg, if_neg (by omega)]
  · rfl
  · intro h
    obtain ⟨v, hv, hne⟩ := List.any_eq_true.1 h
    obtain ⟨i, hi, rfl⟩ := List.mem_map.1 hv
    exact (of_decide_eq_true hne) ((npRound_eq _).2 (hint i hi))

theorem twoPointPass_sat (hG : LawfulRng G) (isInt : Bool) (hdim : 0 < q.nDim) (fuel : Nat) (g : R)
    (hE : ∀ e, drawClasses G fuel (classIndices (q.rows.map q.y)) fuel g = .error e → E e) :
    (twoPointPass G isInt fuel q g).Sat (TwoPointVec isInt q) V E (fun _ => True) := by
  unfold twoPointPass
  cases hd : drawClasses G fuel (classIndices (q.rows.map q.y)) fuel g with
  | error e => exact hE e hd
  | ok x =>
    obtain ⟨⟨l1, l2⟩, g'⟩ := x
    obtain ⟨c1, c2, hne, h1, h2, hl1, hl2⟩ := drawClasses_sound G _ _ _ _ hd
    simp only at h1 h2 hl1 hl2 ⊢
    have hi1 := hG.randint_lt l1.length g' (by omega)
    have hi2 := hG.randint_lt l2.length (G.randint l1.length g').2 (by omega)
    set d1 := G.randint l1.length g' with hd1
    set d2 := G.randint l2.length d1.2 with hd2
    have m1 : l1.getD d1.1 0 ∈ l1 := by
      rw [List.getD_eq_getElem?_getD, List.getElem?_eq_getElem hi1]; simp
    have m2 : l2.getD d2.1 0 ∈ l2 := by
      rw [List.getD_eq_getElem?_getD, List.getElem?_eq_getElem hi2]; simp
    rw [h1] at m1
    rw [h2] at m2
    have y1 := classIndices_getD _ _ _ m1
    have y2 := classIndices_getD _ _ _ m2
    rw [← h1] at y1
    rw [← h2] at y2
    obtain ⟨b1, e1⟩ := List.getElem?_eq_some_iff.1 y1
    obtain ⟨b2, e2⟩ := List.getElem?_eq_some_iff.1 y2
    have b1' : l1.getD d1.1 0 < q.rows.length := by simpa using b1
    have b2' : l2.getD d2.1 0 < q.rows.length := by simpa using b2
    rw [List.getElem_map] at e1 e2
    obtain ⟨r, hr, hr'⟩ := twoPointNormal_ok isInt q hdim (l1.getD d1.1 0) (l2.getD d2.1 0) b1' b2' (by
      rw [rows_getD q.rows _ b1', rows_getD q.rows _ b2', e1, e2]
      exact fun h => hne (Nat.cast_injective h))
    rw [hr]
    exact ⟨hr', fun v _ => trivial⟩

theorem twoPointPass_le (G : Rng R K) (isInt : Bool) (fuel : Nat) (q : HProb K P S) (g : R) :
    (twoPointPass G isInt fuel q g).Le (twoPointPass G isInt (fuel + 1) q g) := by
  unfold twoPointPass
  by_cases hne : drawClasses G fuel (classIndices (q.rows.map q.y)) fuel g = .error .noTermination
  · rw [hne]
    exact .inl rfl
  · rw [drawClasses_le _ _ _ _ _ hne]
    exact Prog.le_refl _

theorem twoPointSolve_le (G : Rng R K) (isInt : Bool) (nMc fuel : Nat) (q : HProb K P S) :
    (twoPointSolve G isInt nMc fuel q).Le (twoPointSolve G isInt nMc (fuel + 1) q) := by
  unfold twoPointSolve
  simp only
  split
  · exact Prog.le_refl _
  · split
    · exact Prog.le_refl _
    · exact Prog.le_loop _ (fun g _ => twoPointPass_le G isInt fuel q g) _

/-- With two non-empty classes and a fair generator, enough fuel makes every pass succeed. -/
theorem twoPointLoop_sat (hG : LawfulRng G) (hfair : FairRng G) (isInt : Bool) (hdim : 0 < q.nDim)
    (a b : Nat) (hab : a ≠ b) (ha : (a : K) ∈ q.rows.map q.y) (hb : (b : K) ∈ q.rows.map q.y)
    (l : List Nat) (g : R) :
    ∃ F, ∀ fuel, F ≤ fuel → (Prog.loop (fun g (_ : Nat) => twoPointPass G isInt fuel q g) l g).Sat
      (TwoPointVec isInt q) V (fun _ => False) (fun _ => True) := by
  induction l generalizing g with
  | nil => exact ⟨0, fun _ _ => trivial⟩
  | cons x l ih =>
    obtain ⟨la, na⟩ := classIndices_nonempty _ a ha
    obtain ⟨lb, nb⟩ := classIndices_nonempty _ b hb
    obtain ⟨k, h0, h1, h2⟩ := hfair (classIndices (q.rows.map q.y)).length a b g la lb hab
    obtain ⟨F1, x1, hF1⟩ := drawClasses_window G (classIndices (q.rows.map q.y)) (by omega) a b hab na nb
      k g h0 h1 h2
    -- the state after this pass does not depend on the fuel
    obtain ⟨F2, hF2⟩ := ih (G.randint x1.1.2.length (G.randint x1.1.1.length x1.2).2).2
    refine ⟨max F1 F2, fun fuel hfuel => ?_⟩
    unfold Prog.loop
    have hd := hF1 fuel fuel (by omega) (by omega)
    have hsat := twoPointPass_sat (V := V) (E := fun _ => False) hG isInt hdim fuel g
      (fun e he => by rw [hd] at he; cases he)
    have hz : (twoPointPass G isInt fuel q g).Sat (TwoPointVec isInt q) V (fun _ => False)
        (fun g' => g' = (G.randint x1.1.2.length (G.randint x1.1.1.length x1.2).2).2) := by
      unfold twoPointPass at hsat ⊢
      rw [hd] at hsat ⊢
      obtain ⟨⟨l1, l2⟩, g'⟩ := x1
      simp only at hsat ⊢
      cases hn : twoPointNormal isInt q (l1.getD (G.randint l1.length g').1 0)
          (l2.getD (G.randint l2.length (G.randint l1.length g').2).1 0) with
      | error e => rw [hn] at hsat; exact hsat
      | ok r =>
        rw [hn] at hsat
        exact ⟨hsat.1, fun v _ => rfl⟩
    refine Prog.sat_bind hz ?_
    rintro g' rfl
    exact hF2 fuel (by omega)

end solve

end BT
