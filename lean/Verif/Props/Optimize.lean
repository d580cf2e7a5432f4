import Verif.Lemmas.HyperTotal
import Verif.Lemmas.Descent
import Verif.Lemmas.TwoPoint
import Verif.Lemmas.HyperSample
import Verif.Props.Sphere
import Verif.Props.Hyper

/-!
# The optimizers: C53, C54, C65, C66, C67
-/

set_option linter.unusedSectionVars false

namespace BT
open Spec

/-! ## From programs to runs -/

theorem Prog.sat_resume {K S α : Type} {Q : RawVec K → Prop} {E : Err → Prop} {Z : α → Prop} {p : Prog K S α}
    (h : p.Sat Q (fun _ _ => True) E Z) (vs : List S) :
    (∀ r, p.resume vs = .eval r → Q r) ∧ (∀ e, p.resume vs = .raise e → E e) ∧
      (p.resume vs = .stop → ∃ a, Z a) := by
  induction p generalizing vs with
  | ret a => exact ⟨fun r h => (by cases h), fun e h => (by cases h), fun _ => ⟨a, h⟩⟩
  | raise e =>
    refine ⟨fun r h => (by cases h), fun e' h' => ?_, fun h => (by cases h)⟩
    cases h'
    exact h
  | eval r k ih =>
    cases vs with
    | nil =>
      refine ⟨fun r' h' => ?_, fun e h => (by cases h), fun h => (by cases h)⟩
      cases h'
      exact h.1
    | cons v vs => exact ih v (h.2 v trivial) vs

theorem Prog.sat_values {K S α : Type} {Q : RawVec K → Prop} {V : RawVec K → S → Prop} {E : Err → Prop}
    {Z : α → Prop} {p : Prog K S α} (h : p.Sat Q (fun _ _ => True) E Z) : p.Sat Q V E Z := by
  induction p with
  | ret a => exact h
  | raise e => exact h
  | eval r k ih => exact ⟨h.1, fun v _ => ih v (h.2 v trivial)⟩

section
variable {K P S O R α ι : Type} [Field K] [LinearOrder K] [IsStrictOrderedRing K] [LinearOrder S] [Neg S]
variable {A : HArith K} {T : Target K P S O} {pair : PairScore K P S} {q : HProb K P S}

/-- A program that ends properly on all values `compute` can return, and evaluates only acceptable
vectors. -/
theorem run_ends {Q : RawVec K → Prop} {Z : α → Prop} (hT : LawfulTarget T pair)
    (hs : IsArgsort (exactOps K).le (fun _ => True) A.argsort) {p : Prog K S α}
    (hsat : p.Sat Q (Returns A T q) (fun _ => False) Z) (hQ : ∀ r, Q r → ∃ w, hNormal A q r = .ok w)
    (st0 : HState S K) : ∃ st a, p.run A T q st0 = .ok (st, a) := by
  rcases Prog.run_sat hsat (fun r hr st => by
    obtain ⟨w, hw⟩ := hQ r hr
    exact hCompute_ok hT hs hw st) st0 with ⟨st, a, h, -⟩ | ⟨e, -, h⟩
  · exact ⟨st, a, h⟩
  · exact h.elim

theorem solve_ends {Q : RawVec K → Prop} {Z : α → Prop} (hT : LawfulTarget T pair)
    (hs : IsArgsort (exactOps K).le (fun _ => True) A.argsort) {p : Nat → Prog K S α}
    (hmono : ∀ n, (p n).Le (p (n + 1))) (F : Nat)
    (hsat : (p F).Sat Q (Returns A T q) (fun _ => False) Z) (hQ : ∀ r, Q r → ∃ w, hNormal A q r = .ok w)
    (st0 : HState S K) :
    ∃ B st, ∀ b, B ≤ b → hSolve A T q (p b).strategy b [] st0 = .ok st := by
  obtain ⟨st, a, h⟩ := run_ends hT hs hsat hQ st0
  obtain ⟨B, hB⟩ := hSolve_family hmono st0 F h
  exact ⟨B, st, hB⟩

theorem hCompute_evals (hT : LawfulTarget T pair)
    (hs : IsArgsort (exactOps K).le (fun _ => True) A.argsort) {st st' : HState S K} {r : RawVec K} {v : S}
    (h : hCompute A T q st r = .ok (st', v)) : st'.evals = st.evals + 1 := by
  rcases hCompute_spec hT hs h with ⟨w, hn, hj, rfl, rfl⟩ | ⟨s, sp, ho, rfl, rfl⟩
  · rfl
  · unfold hUpdate
    split
    · rfl
    · rfl

/-- A loop whose body evaluates one vector performs one evaluation per pass. -/
theorem run_loop_evals (hT : LawfulTarget T pair)
    (hs : IsArgsort (exactOps K).le (fun _ => True) A.argsort) {f : α → ι → Prog K S α}
    (hf : ∀ a x, (∃ r, ∃ k : S → α, f a x = .eval r fun v => .ret (k v)) ∨ ∃ e, f a x = .raise e) (l : List ι) (a : α)
    {st st' : HState S K} {a' : α} (h : (Prog.loop f l a).run A T q st = .ok (st', a')) :
    st'.evals = st.evals + l.length := by
  induction l generalizing a st with
  | nil => cases h; rfl
  | cons x l ih =>
    rcases hf a x with ⟨r, k, e⟩ | ⟨e', e⟩
    · unfold Prog.loop at h
      rw [e] at h
      simp only [Prog.bind, Prog.run] at h
      split at h
      · cases h
      · next st1 v h1 =>
        rw [ih _ h, hCompute_evals hT hs h1, List.length_cons]
        omega
    · unfold Prog.loop at h
      rw [e] at h
      cases h

/-- Float vectors of the right length are accepted by optimizers searching all vectors. -/
theorem hNormal_fvec (hq : q.hypercube = false) (hdim : 0 < q.nDim) (u : List K) (hu : u.length = q.nDim) :
    ∃ w, hNormal A q (fvec u) = .ok w := by
  refine (C48_accepts (A := A) hq (fvec u)).1 rfl (by simpa [fvec] using hu) ?_
  intro h
  simp only [fvec, List.map_eq_nil_iff] at h
  rw [h] at hu
  simp at hu
  omega

end

/-- Cube points are accepted by the optimizers searching the cube. -/
theorem hNormal_cube {P S : Type} {q : HProb ℝ P S} (argsort : List ℝ → List Nat) (hq : q.hypercube = true)
    (hdim : 2 ≤ q.nDim) (r : RawVec ℝ) (hr : CubeVec (q.nDim - 1) r) :
    ∃ w, hNormal (exactArith argsort) q r = .ok w := by
  obtain ⟨u, rfl, hlen, hu⟩ := hr
  have hcube : InCube (fvec u).v := by
    intro x hx
    obtain ⟨a, ha, rfl⟩ := List.mem_map.1 hx
    exact ⟨a, rfl, hu a ha⟩
  have hl : (fvec u).v.length = q.nDim - 1 := by simpa [fvec] using hlen
  obtain ⟨x, hx, hxl, -, -⟩ := C55_on_sphere (fvec u).v true (by omega) hcube
  have hxl' : x.length = q.nDim := by omega
  have hs : (exactArith argsort).sphere (fvec u).v = .ok (x.map XF.fin) := by
    show (hypersphere (fvec u).v true).map _ = _
    rw [hx]; rfl
  have hne : (x.map XF.fin).map (nanToNum (exactArith argsort).big) ≠ [] := by
    intro h
    simp only [List.map_eq_nil_iff] at h
    rw [h] at hxl'
    simp at hxl'
    omega
  unfold hNormal
  simp only [hq, if_true, hs]
  unfold normalizeVec
  simp only [if_neg hne, Bool.false_eq_true, if_false]
  rw [if_neg]
  · exact ⟨_, rfl⟩
  · intro h
    apply h
    split
    · simp [hxl']
    · simp [hxl']

/-! ## C53: two points of different classes -/

section
variable {K P S R : Type} [Field K] [LinearOrder K] [IsStrictOrderedRing K] [FloorRing K] [LinearOrder S]
variable (G : Rng R K) (isInt : Bool) (nMc : Nat) (q : HProb K P S)

/-- C53 (what holds of "rejects regression"): the very first action of `solve` is to raise `TypeError` if
some target is not an integer — and only then. -/
theorem C53_rejects_partial (fuel : Nat) (hG : LawfulRng G) (hdim : 0 < q.nDim) :
    ((∃ i ∈ q.rows, ∀ z : Int, q.y i ≠ (z : K)) →
      ∀ hist, (twoPointSolve G isInt nMc fuel q).strategy hist = .raise .typeError) ∧
    ((∀ i ∈ q.rows, ∃ z : Int, q.y i = (z : K)) →
      ∀ hist, (twoPointSolve G isInt nMc fuel q).strategy hist ≠ .raise .typeError) := by
  constructor
  · rintro ⟨i, hi, hz⟩ hist
    have : (q.rows.map q.y).any (fun v => decide (npRound v ≠ v)) = true := by
      rw [List.any_eq_true]
      refine ⟨q.y i, List.mem_map_of_mem hi, ?_⟩
      rw [decide_eq_true_eq, Ne, npRound_eq]
      rintro ⟨z, h⟩
      exact hz z h
    unfold twoPointSolve
    simp only [this, if_true]
    rfl
  · intro hint hist hh
    by_cases htwo : 1 < (distinct (q.rows.map q.y)).length
    · have hsat : (twoPointSolve G isInt nMc fuel q).Sat (TwoPointVec isInt q) (fun _ _ => True)
          (fun e => e ≠ .typeError) (fun _ => True) := by
        rw [twoPointSolve_eq G isInt nMc fuel q hint htwo]
        refine Prog.sat_loop (I := fun _ => True) (fun g _ x _ => ?_) trivial
        refine twoPointPass_sat hG isInt hdim fuel g ?_
        intro e he
        have key : ∀ fi f g', drawClasses G fi (classIndices (q.rows.map q.y)) f g' = .error e →
            e = .noTermination ∨ e = .valueError := by
          intro fi f
          induction f with
          | zero => intro g' h; cases h; exact .inl rfl
          | succ f ih =>
            intro g' h
            unfold drawClasses at h
            split at h
            · cases h; exact .inr rfl
            · simp only at h
              split at h
              · next e' h' =>
                cases h
                have inner : ∀ fi g'', drawOther G (classIndices (q.rows.map q.y)).length
                    (G.randint (classIndices (q.rows.map q.y)).length g').1 fi g'' = .error e →
                    e = .noTermination := by
                  intro fi
                  induction fi with
                  | zero => intro g'' h; cases h; rfl
                  | succ fi ih' =>
                    intro g'' h
                    unfold drawOther at h
                    simp only at h
                    split at h
                    · exact ih' _ h
                    · cases h
                exact .inl (inner _ _ h')
              · split at h
                · exact ih _ h
                · cases h
        rcases key _ _ _ he with rfl | rfl <;> simp
      exact (Prog.sat_resume hsat _).2.1 _ hh rfl
    · have : (q.rows.map q.y).any (fun v => decide (npRound v ≠ v)) = false := by
        rw [List.any_eq_false]
        intro v hv
        obtain ⟨i, hi, rfl⟩ := List.mem_map.1 hv
        simp only [decide_eq_true_eq, not_not]
        exact (npRound_eq _).2 (hint i hi)
      unfold twoPointSolve at hh
      simp only [this, Bool.false_eq_true, if_false] at hh
      rw [if_pos (by omega)] at hh
      cases hh

/-- C53 (partial): with integer targets `≥ 0` — classification — `solve` ends, for every generator that
does not forever avoid a pair of classes, without any exception; it evaluates only differences of two rows
with different targets, pointing to the non-negative side of the first axis. -/
theorem C53_terminates_partial (hG : LawfulRng G) (hfair : FairRng G) (hdim : 0 < q.nDim)
    (hy : ∀ i ∈ q.rows, ∃ n : Nat, q.y i = (n : K)) :
    ∃ F, ∀ fuel, F ≤ fuel →
      (twoPointSolve G isInt nMc fuel q).Sat (TwoPointVec isInt q) (fun _ _ => True) (fun _ => False)
        (fun _ => True) ∧
      ∀ hist, (∀ r, (twoPointSolve G isInt nMc fuel q).strategy hist = .eval r → TwoPointVec isInt q r) ∧
        ∀ e, (twoPointSolve G isInt nMc fuel q).strategy hist ≠ .raise e := by
  have hint : ∀ i ∈ q.rows, ∃ z : Int, q.y i = (z : K) := fun i hi => by
    obtain ⟨n, hn⟩ := hy i hi
    exact ⟨n, by rw [hn]; simp⟩
  suffices ∃ F, ∀ fuel, F ≤ fuel →
      (twoPointSolve G isInt nMc fuel q).Sat (TwoPointVec isInt q) (fun _ _ => True) (fun _ => False)
        (fun _ => True) by
    obtain ⟨F, hF⟩ := this
    exact ⟨F, fun fuel hf => ⟨hF fuel hf, fun hist => ⟨(Prog.sat_resume (hF fuel hf) _).1,
      fun e he => (Prog.sat_resume (hF fuel hf) _).2.1 e he⟩⟩⟩
  by_cases htwo : 1 < (distinct (q.rows.map q.y)).length
  · obtain ⟨va, hva, vb, hvb, hab⟩ := one_lt_distinct.1 htwo
    obtain ⟨i, hi, rfl⟩ := List.mem_map.1 hva
    obtain ⟨j, hj, rfl⟩ := List.mem_map.1 hvb
    obtain ⟨a, ha⟩ := hy i hi
    obtain ⟨b, hb⟩ := hy j hj
    obtain ⟨F, hF⟩ := twoPointLoop_sat (V := fun _ _ => True) (q := q) hG hfair isInt hdim a b
      (fun h => hab (by rw [ha, hb, h])) (by rw [← ha]; exact hva) (by rw [← hb]; exact hvb) (List.range nMc)
      G.init
    refine ⟨F, fun fuel hf => ?_⟩
    rw [twoPointSolve_eq G isInt nMc fuel q hint htwo]
    exact hF fuel hf
  · refine ⟨0, fun fuel _ => ?_⟩
    have : (q.rows.map q.y).any (fun v => decide (npRound v ≠ v)) = false := by
      rw [List.any_eq_false]
      intro v hv
      obtain ⟨i, hi, rfl⟩ := List.mem_map.1 hv
      simp only [decide_eq_true_eq, not_not]
      exact (npRound_eq _).2 (hint i hi)
    unfold twoPointSolve
    simp only [this, Bool.false_eq_true, if_false]
    rw [if_pos (by omega)]
    exact trivial

/-- C53 (what goes wrong): integer targets whose largest value is 0 and that are not all 0 leave a single
class, and `while class2 == class1` never ends. -/
theorem C53_hangs (hG : LawfulRng G) (hmc : 0 < nMc) (fuel : Nat)
    (hint : ∀ i ∈ q.rows, ∃ z : Int, q.y i = (z : K)) (hmax : ∀ i ∈ q.rows, q.y i ≤ 0)
    (hzero : ∃ i ∈ q.rows, q.y i = 0) (hneg : ∃ i ∈ q.rows, q.y i < 0) (hist : List (RawVec K × S)) :
    (twoPointSolve G isInt nMc fuel q).strategy hist = .raise .noTermination := by
  have htwo : 1 < (distinct (q.rows.map q.y)).length := by
    obtain ⟨i, hi, h0⟩ := hzero
    obtain ⟨j, hj, h1⟩ := hneg
    exact one_lt_distinct.2 ⟨q.y i, List.mem_map_of_mem hi, q.y j, List.mem_map_of_mem hj, by
      rw [h0]; exact h1.ne'⟩
  rw [twoPointSolve_eq G isInt nMc fuel q hint htwo]
  obtain ⟨m, rfl⟩ : ∃ m, nMc = m + 1 := ⟨nMc - 1, by omega⟩
  have hcls : (classIndices (q.rows.map q.y)).length = 1 := by
    obtain ⟨h1, h2⟩ := foldl_max_spec (q.rows.map q.y) ((q.rows.map q.y).getD 0 0)
    have hm : (q.rows.map q.y).foldl max ((q.rows.map q.y).getD 0 0) = 0 := by
      obtain ⟨i, hi, h0⟩ := hzero
      apply le_antisymm
      · have hall : ∀ x ∈ q.rows.map q.y, x ≤ 0 := by
          intro x hx
          obtain ⟨j, hj, rfl⟩ := List.mem_map.1 hx
          exact hmax j hj
        rcases h2.2 with h | h
        · rw [h]
          rw [List.getD_eq_getElem?_getD]
          cases hg : (q.rows.map q.y)[0]? with
          | none => exact le_rfl
          | some a => exact hall a (List.mem_of_getElem? hg)
        · exact hall _ h
      · exact h0 ▸ h2.1 (q.y i) (List.mem_map_of_mem hi)
    unfold classIndices
    rw [List.length_map, List.length_range, hm]
    simp
  have hother : ∀ f g, drawOther G 1 0 f g = .error .noTermination := by
    intro f
    induction f with
    | zero => intro g; rfl
    | succ f ih =>
      intro g
      unfold drawOther
      have := hG.randint_lt 1 g (by decide)
      simp only [show (G.randint 1 g).1 = 0 by omega, if_true]
      exact ih _
  have hd : ∀ f g, drawClasses G fuel (classIndices (q.rows.map q.y)) f g = .error .noTermination := by
    intro f g
    cases f with
    | zero => rfl
    | succ f =>
      unfold drawClasses
      have := hG.randint_lt 1 g (by decide)
      simp only [hcls, show (G.randint 1 g).1 = 0 by omega, hother]
      simp
  have hpass : ∀ g, twoPointPass (S := S) G isInt fuel q g = .raise .noTermination := by
    intro g
    unfold twoPointPass
    rw [hd]
  rw [List.range_succ_eq_map]
  unfold Prog.loop
  rw [hpass]
  rfl

end

/-- A generator for examples: `randint` runs through all patterns `a, a, b`. -/
def counterRng (K : Type) [Field K] : Rng Nat K where
  init := 0
  uniform lo _ n g := (List.replicate n lo, g + 1)
  randint n g := (if g % 3 < 2 then g / 3 / n % n else g / 3 % n, g + 1)
  normal n g := (List.replicate n 1, g + 1)

theorem counterRng_lawful {K : Type} [Field K] [LinearOrder K] : LawfulRng (counterRng K) where
  uniform_length lo hi n g := by simp [counterRng]
  uniform_mem lo hi n g h a ha := by
    have := List.eq_of_mem_replicate ha
    exact ⟨this ▸ le_rfl, this ▸ h⟩
  randint_lt n g hn := by
    show (if g % 3 < 2 then g / 3 / n % n else g / 3 % n) < n
    split <;> exact Nat.mod_lt _ hn
  normal_length n g := by simp [counterRng]

theorem counterRng_fair {K : Type} [Field K] : FairRng (counterRng K) := by
  intro n a b g ha hb hab
  have hst : ∀ i g, drawState (counterRng K) n i g = g + i := by
    intro i
    induction i with
    | zero => intro g; rfl
    | succ i ih =>
      intro g
      unfold drawState at ih ⊢
      rw [Function.iterate_succ_apply, ih]
      show g + 1 + i = g + (i + 1)
      omega
  have hat : ∀ i, drawAt (counterRng K) n i g =
      if (g + i) % 3 < 2 then (g + i) / 3 / n % n else (g + i) / 3 % n := by
    intro i
    unfold drawAt
    rw [hst]
    rfl
  have hn : 0 < n := by omega
  set p := (n * g + a) * n + b with hp
  have hg : g ≤ p := by
    have : g ≤ n * g := Nat.le_mul_of_pos_left g hn
    have : n * g + a ≤ (n * g + a) * n := Nat.le_mul_of_pos_right _ hn
    omega
  have e1 : p / n = n * g + a := by
    rw [hp, Nat.add_comm, Nat.add_mul_div_right _ _ hn, Nat.div_eq_of_lt hb, Nat.zero_add]
  have e2 : p / n % n = a := by
    rw [e1, Nat.mul_add_mod, Nat.mod_eq_of_lt ha]
  have e3 : p % n = b := by
    rw [hp, Nat.add_comm, Nat.add_mul_mod_self_right, Nat.mod_eq_of_lt hb]
  refine ⟨3 * p - g, ?_, ?_, ?_⟩
  · rw [hat, show g + (3 * p - g) = 3 * p by omega, show 3 * p % 3 = 0 by omega,
      show 3 * p / 3 = p by omega, if_pos (by decide), e2]
  · rw [hat, show g + (3 * p - g + 1) = 3 * p + 1 by omega, show (3 * p + 1) % 3 = 1 by omega,
      show (3 * p + 1) / 3 = p by omega, if_pos (by decide), e2]
  · rw [hat, show g + (3 * p - g + 2) = 3 * p + 2 by omega, show (3 * p + 2) % 3 = 2 by omega,
      show (3 * p + 2) / 3 = p by omega, if_neg (by decide), e3]

/-- A node with two rows and targets `-1`, `0`. -/
def hangProb : HProb ℚ (List ℚ) ℚ :=
  { X := fun i _ => (i : ℚ), y := fun i => (i : ℚ) - 1, nDim := 1, rows := [0, 1], prior := [1, 1],
    partitionPrior := 1/2, level := 0, noSplit := 1, hypercube := false, prec := 0 }

/-- C53 is false of the code: not every run of `solve` ends, and not every regression problem is
rejected with `TypeError`. -/
theorem C53_refuted :
    (¬ ∀ (G : Rng Nat ℚ) (q : HProb ℚ (List ℚ) ℚ) (nMc : Nat), LawfulRng G → FairRng G → 0 < q.nDim →
      ∃ fuel, ∀ hist, (twoPointSolve G false nMc fuel q).strategy hist ≠ .raise .noTermination) ∧
    (¬ ∀ (G : Rng Nat ℚ) (q : HProb ℚ (List ℚ) ℚ) (nMc fuel : Nat), LawfulRng G → 0 < q.nDim →
      (∃ i ∈ q.rows, q.y i < 0) →
      (twoPointSolve G false nMc fuel q).strategy [] = .raise .typeError) := by
  have hang := fun fuel => C53_hangs (counterRng ℚ) false 1 hangProb counterRng_lawful Nat.one_pos fuel
    (by
      intro i hi
      exact ⟨(i : Int) - 1, by simp [hangProb]⟩)
    (by decide +kernel) (by decide +kernel) (by decide +kernel)
  constructor
  · intro h
    obtain ⟨fuel, hf⟩ := h (counterRng ℚ) hangProb 1 counterRng_lawful counterRng_fair (by decide)
    exact hf [] (hang fuel [])
  · intro h
    have := h (counterRng ℚ) hangProb 1 0 counterRng_lawful (by decide) (by decide +kernel)
    rw [hang 0 []] at this
    cases this

/-- Three classes, one of them absent: the hypotheses of `C53_terminates_partial` hold. -/
example : ∃ F, ∀ fuel, F ≤ fuel → ∀ hist e,
    (twoPointSolve (counterRng ℚ) false 4 fuel
      { hangProb with y := fun i => if i = 0 then 0 else 2 }).strategy hist ≠ .raise e := by
  obtain ⟨F, hF⟩ := C53_terminates_partial (counterRng ℚ) false 4
    { hangProb with y := fun i => if i = 0 then 0 else 2 } counterRng_lawful counterRng_fair (by decide) (by
      intro i _
      by_cases h : i = 0
      · exact ⟨0, by simp [h]⟩
      · exact ⟨2, by simp [h]⟩)
  exact ⟨F, fun fuel hf hist => ((hF fuel hf).2 hist).2⟩

/-! ## C54: simulated annealing -/

section
variable {K P S R : Type} [Field K] [LinearOrder K] [IsStrictOrderedRing K] [LinearOrder S]
variable (G : Rng R K) (nScan nKeep : Nat) (spread : K) (q : HProb K P S)

/-- C54: whatever values `compute` returns, annealing with `n_scan, n_keep ≥ 1` evaluates only points of
the unit cube of dimension `n_dim - 1` and raises nothing (except that the model may run out of fuel). -/
theorem C54_cube (hG : LawfulRng G) (hdim : 0 < q.nDim) (hscan : 0 < nScan) (hkeep : 0 < nKeep) (fuel : Nat)
    (hist : List (RawVec K × S)) :
    (∀ r, (saSolve G nScan nKeep spread fuel q).strategy hist = .eval r →
      ∃ u : List K, r = ⟨false, u.map XF.fin⟩ ∧ u.length = q.nDim - 1 ∧ ∀ a ∈ u, 0 ≤ a ∧ a ≤ 1) ∧
    ∀ e, (saSolve G nScan nKeep spread fuel q).strategy hist = .raise e → e = .noTermination := by
  have h := saLoop_sat (V := fun _ _ => True) (W := fun _ => True) (E := fun e => e = .noTermination) (q := q)
    hG (fun _ _ _ => trivial) rfl hdim hscan hkeep spread fuel ⟨[], 0, none, 1, G.init⟩
    (fun e he => by cases he)
  obtain ⟨h1, h2, -⟩ := Prog.sat_resume h (hist.reverse.map Prod.snd)
  refine ⟨fun r hr => ?_, h2⟩
  obtain ⟨u, rfl, hu⟩ := h1 r hr
  exact ⟨u, rfl, hu⟩

/-- C54: without a scan or without kept candidates annealing always ends with `IndexError`. -/
theorem C54_index (hG : LawfulRng G) (hdim : 0 < q.nDim) (h0 : nScan = 0 ∨ nKeep = 0) (fuel : Nat)
    (hist : List (RawVec K × S)) :
    (saSolve G nScan nKeep spread (fuel + 1) q).strategy hist ≠ .stop ∧
    ∀ e, (saSolve G nScan nKeep spread (fuel + 1) q).strategy hist = .raise e → e = .indexError := by
  have h : (saSolve G nScan nKeep spread (fuel + 1) q).Sat (CubeVec (q.nDim - 1)) (fun _ _ => True)
      (fun e => e = .indexError) (fun _ => False) := by
    unfold saSolve saLoop
    rw [if_pos (show (0 : Nat) < 50 by decide)]
    unfold saRound
    simp only [List.length_nil, if_true]
    refine Prog.sat_bind (Z := fun _ => False) (Prog.sat_bind (Z := fun s => nScan = 0 → s.1 = []) ?_
      fun s hs => ?_) fun _ h => h.elim
    · rcases Nat.eq_zero_or_pos nScan with h | h
      · subst h
        intro _
        rfl
      · exact Prog.sat_mono (scan_sat (W := fun _ => True) hG (fun _ _ _ => trivial) hdim nScan G.init)
          (fun _ _ h' => by omega)
    · rw [keepBest_error s.1 nKeep 0 none (h0.imp hs id)]
      rfl
  obtain ⟨-, h2, h3⟩ := Prog.sat_resume h (hist.reverse.map Prod.snd)
  exact ⟨fun hh => (h3 hh).elim fun _ h => h, h2⟩

end

section
variable {P S O R : Type} [LinearOrder S] [Neg S] {T : Target ℝ P S O} {pair : PairScore ℝ P S}
variable {argsort : List ℝ → List Nat}

/-- C54: on every data set with at least two features annealing with `n_scan, n_keep ≥ 1` ends properly. -/
theorem C54_terminates (G : Rng R ℝ) (nScan nKeep : Nat) (spread : ℝ) (q : HProb ℝ P S) (hG : LawfulRng G)
    (hT : LawfulTarget T pair) (hs : IsArgsort (exactOps ℝ).le (fun _ => True) argsort)
    (hcube : q.hypercube = true) (hdim : 2 ≤ q.nDim) (hscan : 0 < nScan) (hkeep : 0 < nKeep)
    (st0 : HState S ℝ) :
    ∃ B st, ∀ b, B ≤ b →
      hSolve (exactArith argsort) T q (saSolve G nScan nKeep spread b q).strategy b [] st0 = .ok st :=
  solve_ends (A := exactArith argsort) hT hs (fun n => saLoop_le G nScan nKeep spread q n _)
    (50 * (objectiveValues pair q).length + 52)
    (saSolve_terminates hG (fun _ _ h => returns_mem hT hs h) (by omega) hscan hkeep spread _ (by omega))
    (hNormal_cube argsort hcube hdim) st0

/-! ## C66: gradient descent -/

theorem tenPow_start {K : Type} [Field K] [LinearOrder K] [IsStrictOrderedRing K] :
    TenPow 6 (1 / 1000000 : K) := ⟨by decide, by norm_num⟩

/-- C66: gradient descent with `n_init, n_keep ≥ 1` evaluates only points of the unit cube — also in the
difference quotients — and raises nothing (except that the model may run out of fuel). -/
theorem C66_cube {K : Type} [Field K] [LinearOrder K] [IsStrictOrderedRing K] (G : Rng R K)
    (nInit nKeep : Nat) (q : HProb K P K) (hG : LawfulRng G) (hdim : 0 < q.nDim) (hinit : 0 < nInit)
    (hkeep : 0 < nKeep) (fuel : Nat) (hist : List (RawVec K × K)) :
    (∀ r, (gdSolve G nInit nKeep fuel q).strategy hist = .eval r →
      ∃ u : List K, r = ⟨false, u.map XF.fin⟩ ∧ u.length = q.nDim - 1 ∧ ∀ a ∈ u, 0 ≤ a ∧ a ≤ 1) ∧
    ∀ e, (gdSolve G nInit nKeep fuel q).strategy hist = .raise e → e = .noTermination := by
  have h := gdLoop_sat (V := fun _ _ => True) (W := fun _ => True) (E := fun e => e = .noTermination) (q := q)
    hG (fun _ _ _ => trivial) rfl hdim hinit hkeep fuel fuel ⟨[], 0, none, 1 / 1000000, G.init⟩
    tenPow_start (fun e he => by cases he)
  obtain ⟨h1, h2, -⟩ := Prog.sat_resume h (hist.reverse.map Prod.snd)
  refine ⟨fun r hr => ?_, h2⟩
  obtain ⟨u, rfl, hu⟩ := h1 r hr
  exact ⟨u, rfl, hu⟩

/-- C66: without initial or kept candidates gradient descent always ends with `IndexError`. -/
theorem C66_index {K : Type} [Field K] [LinearOrder K] [IsStrictOrderedRing K] (G : Rng R K)
    (nInit nKeep : Nat) (q : HProb K P K) (hG : LawfulRng G) (hdim : 0 < q.nDim)
    (h0 : nInit = 0 ∨ nKeep = 0) (fuel : Nat) (hist : List (RawVec K × K)) :
    (gdSolve G nInit nKeep (fuel + 1) q).strategy hist ≠ .stop ∧
    ∀ e, (gdSolve G nInit nKeep (fuel + 1) q).strategy hist = .raise e → e = .indexError := by
  have h : (gdSolve G nInit nKeep (fuel + 1) q).Sat (CubeVec (q.nDim - 1)) (fun _ _ => True)
      (fun e => e = .indexError) (fun _ => False) := by
    unfold gdSolve gdLoop
    rw [if_pos (show (0 : Nat) < 3 by decide)]
    unfold gdRound
    simp only [List.length_nil, if_true]
    refine Prog.sat_bind (Z := fun _ => False) (Prog.sat_bind (Z := fun s => nInit = 0 → s.1 = []) ?_
      fun s hs => ?_) fun _ h => h.elim
    · rcases Nat.eq_zero_or_pos nInit with h | h
      · subst h
        intro _
        rfl
      · exact Prog.sat_mono (scan_sat (W := fun _ => True) hG (fun _ _ _ => trivial) hdim nInit G.init)
          (fun _ _ h' => by omega)
    · rw [keepBest_error s.1 nKeep 0 none (h0.imp hs id)]
      rfl
  obtain ⟨-, h2, h3⟩ := Prog.sat_resume h (hist.reverse.map Prod.snd)
  exact ⟨fun hh => (h3 hh).elim fun _ h => h, h2⟩

/-- C66: on every data set with at least two features gradient descent with `n_init, n_keep ≥ 1` ends
properly. -/
theorem C66_terminates {T : Target ℝ P ℝ O} {pair : PairScore ℝ P ℝ} (G : Rng R ℝ) (nInit nKeep : Nat)
    (q : HProb ℝ P ℝ) (hG : LawfulRng G) (hT : LawfulTarget T pair)
    (hs : IsArgsort (exactOps ℝ).le (fun _ => True) argsort) (hcube : q.hypercube = true)
    (hdim : 2 ≤ q.nDim) (hinit : 0 < nInit) (hkeep : 0 < nKeep) (st0 : HState ℝ ℝ) :
    ∃ B st, ∀ b, B ≤ b →
      hSolve (exactArith argsort) T q (gdSolve G nInit nKeep b q).strategy b [] st0 = .ok st :=
  solve_ends (A := exactArith argsort) hT hs (fun n => gdSolve_le G nInit nKeep n q)
    (6 + nKeep + (nKeep + 1) * (3 * (objectiveValues pair q).length + 3) + 1)
    (gdSolve_terminates hG (fun _ _ h => returns_mem hT hs h) (by omega) hinit hkeep _ (by omega))
    (hNormal_cube argsort hcube hdim) st0

end

/-! ## C65: random and quasi-random normals -/

section
variable {K P S O R : Type} [Field K] [LinearOrder K] [IsStrictOrderedRing K] [LinearOrder S] [Neg S]

/-- C65: the random optimizer never fails and evaluates exactly `n_mc` normals. -/
theorem C65_random {A : HArith K} {T : Target K P S O} {pair : PairScore K P S} (G : Rng R K) (nMc : Nat)
    (q : HProb K P S) (hG : LawfulRng G) (hT : LawfulTarget T pair)
    (hs : IsArgsort (exactOps K).le (fun _ => True) A.argsort) (hcube : q.hypercube = false)
    (hdim : 0 < q.nDim) (st0 : HState S K) :
    ∃ st, st.evals = st0.evals + nMc ∧
      ∃ B, ∀ b, B ≤ b → hSolve A T q (randomSolve G nMc q).strategy b [] st0 = .ok st := by
  have hsat : (randomSolve G nMc q : Prog K S R).Sat (fun r => ∃ u, r = fvec u ∧ u.length = q.nDim)
      (Returns A T q) (fun _ => False) (fun _ => True) := by
    unfold randomSolve
    refine Prog.sat_loop (I := fun _ => True) (fun g _ x _ => ?_) trivial
    exact ⟨⟨_, rfl, hG.normal_length _ _⟩, fun _ _ => trivial⟩
  obtain ⟨st, a, h⟩ := run_ends hT hs hsat (fun r hr => by
    obtain ⟨u, rfl, hu⟩ := hr
    exact hNormal_fvec hcube hdim u hu) st0
  refine ⟨st, ?_, ?_⟩
  · have := run_loop_evals hT hs (fun g x => .inl ⟨_, _, rfl⟩) (List.range nMc) _ h
    rwa [List.length_range] at this
  · obtain ⟨B, hB⟩ := hSolve_prog (randomSolve G nMc q) st0 (by rw [h]; intro hh; cases hh)
    exact ⟨B, fun b hb => by rw [hB b hb, h]; rfl⟩

end

section
variable {P S O R : Type} [LinearOrder S] [Neg S] {T : Target ℝ P S O} {pair : PairScore ℝ P S}
variable {argsort : List ℝ → List Nat}

/-- C65: with at least two features the quasi-random optimizer never fails and evaluates exactly `n`
normals. -/
theorem C65_quasi (phi : ℝ) (n : Nat) (q : HProb ℝ P S) (hT : LawfulTarget T pair)
    (hs : IsArgsort (exactOps ℝ).le (fun _ => True) argsort) (hcube : q.hypercube = true)
    (hdim : 2 ≤ q.nDim) (st0 : HState S ℝ) :
    ∃ st, st.evals = st0.evals + n ∧
      ∃ B, ∀ b, B ≤ b →
        hSolve (exactArith argsort) T q (quasiSolve phi n q).strategy b [] st0 = .ok st := by
  have hsat : (quasiSolve phi n q : Prog ℝ S Unit).Sat (CubeVec (q.nDim - 1))
      (Returns (exactArith argsort) T q) (fun _ => False) (fun _ => True) := by
    unfold quasiSolve
    refine Prog.sat_loop (I := fun _ => True) (fun g _ x _ => ?_) trivial
    obtain ⟨u, hu, hl, hm⟩ := (C56_unit_cube (q.nDim - 1) phi x).1 (by omega)
    simp only [hu]
    exact ⟨⟨u, rfl, hl, fun a ha => ⟨(hm a ha).1, (hm a ha).2.le⟩⟩, fun _ _ => trivial⟩
  obtain ⟨st, a, h⟩ := run_ends (A := exactArith argsort) hT hs hsat (hNormal_cube argsort hcube hdim) st0
  refine ⟨st, ?_, ?_⟩
  · have := run_loop_evals (A := exactArith argsort) hT hs (fun g x => by
      cases r2Next (q.nDim - 1) phi x with
      | error e => exact .inr ⟨e, rfl⟩
      | ok u => exact .inl ⟨fvec u, fun _ => (), rfl⟩) (List.range n) _ h
    rwa [List.length_range] at this
  · obtain ⟨B, hB⟩ := hSolve_prog (quasiSolve phi n q) st0 (by rw [h]; intro hh; cases hh)
    exact ⟨B, fun b hb => by rw [hB b hb, h]; rfl⟩

/-- C65: with a single feature the quasi-random optimizer raises `ValueError` (unless `n = 0`). -/
theorem C65_quasi_one (phi : ℝ) (n : Nat) (q : HProb ℝ P S) (hdim : q.nDim = 1) (hn : 0 < n)
    (hist : List (RawVec ℝ × S)) : (quasiSolve phi n q).strategy hist = .raise .valueError := by
  obtain ⟨m, rfl⟩ : ∃ m, n = m + 1 := ⟨n - 1, by omega⟩
  have h := (C56_unit_cube (q.nDim - 1) phi 0).2 (by omega)
  unfold quasiSolve
  rw [List.range_succ_eq_map]
  unfold Prog.loop
  simp only [h]
  rfl

/-! ## C67: whole fits -/

variable (c : HCtx ℝ P S O) (prior : Option P) (n : Nat)

/-- C67: a fit with simulated annealing yields a tree, for every data set with two or more features. -/
theorem C67_annealing (hT : LawfulTarget c.T pair) (hA : c.A = exactArith argsort)
    (hs : IsArgsort (exactOps ℝ).le (fun _ => True) argsort) (hdim : 2 ≤ c.nDim) (G : Rng R ℝ)
    (hG : LawfulRng G) (nScan nKeep : Nat) (hscan : 0 < nScan) (hkeep : 0 < nKeep) (spread : ℝ) :
    ∃ B t, ∀ b, B ≤ b → hFitRoot (withOpt c (saOptimizer G nScan nKeep spread b) b) prior n = .ok t :=
  hFitRoot_family c (fun b => saOptimizer G nScan nKeep spread b) true (fun _ => rfl) prior n
    fun pr lv R _ => by
      rw [hA]
      exact C54_terminates G nScan nKeep spread _ hG hT hs rfl hdim hscan hkeep _

/-- C67: the same with gradient descent. -/
theorem C67_descent {pair : PairScore ℝ P ℝ} (c : HCtx ℝ P ℝ O)
    (hT : LawfulTarget c.T pair) (hA : c.A = exactArith argsort)
    (hs : IsArgsort (exactOps ℝ).le (fun _ => True) argsort) (hdim : 2 ≤ c.nDim) (G : Rng R ℝ)
    (hG : LawfulRng G) (nInit nKeep : Nat) (hinit : 0 < nInit) (hkeep : 0 < nKeep) :
    ∃ B t, ∀ b, B ≤ b → hFitRoot (withOpt c (gdOptimizer G nInit nKeep b) b) prior n = .ok t :=
  hFitRoot_family c (fun b => gdOptimizer G nInit nKeep b) true (fun _ => rfl) prior n
    fun pr lv R _ => by
      rw [hA]
      exact C66_terminates G nInit nKeep _ hG hT hs rfl hdim hinit hkeep _

/-- C67: the same with quasi-random normals. -/
theorem C67_quasi (hT : LawfulTarget c.T pair) (hA : c.A = exactArith argsort)
    (hs : IsArgsort (exactOps ℝ).le (fun _ => True) argsort) (hdim : 2 ≤ c.nDim) (phi : ℝ) (m : Nat) :
    ∃ B t, ∀ b, B ≤ b → hFitRoot (withOpt c (quasiOptimizer phi m) b) prior n = .ok t :=
  hFitRoot_family c (fun _ => quasiOptimizer phi m) true (fun _ => rfl) prior n
    fun pr lv R _ => by
      rw [hA]
      obtain ⟨st, -, B, hB⟩ := C65_quasi (argsort := argsort) phi m
        (hProblem (withOpt c (quasiOptimizer phi m) 0) pr lv R) hT hs rfl hdim (hInit _)
      exact ⟨B, st, hB⟩

end

section
variable {K P S O R : Type} [Field K] [LinearOrder K] [IsStrictOrderedRing K] [LinearOrder S] [Neg S]
variable {pair : PairScore K P S} (c : HCtx K P S O) (prior : Option P) (n : Nat)

/-- C67: the same with random normals, for one or more features. -/
theorem C67_random (hT : LawfulTarget c.T pair)
    (hs : IsArgsort (exactOps K).le (fun _ => True) c.A.argsort) (hdim : 0 < c.nDim) (G : Rng R K)
    (hG : LawfulRng G) (m : Nat) :
    ∃ B t, ∀ b, B ≤ b → hFitRoot (withOpt c (randomOptimizer G m) b) prior n = .ok t :=
  hFitRoot_family c (fun _ => randomOptimizer G m) false (fun _ => rfl) prior n
    fun pr lv R _ => by
      obtain ⟨st, -, B, hB⟩ := C65_random (A := c.A) G m
        (hProblem (withOpt c (randomOptimizer G m) 0) pr lv R) hG hT hs rfl hdim (hInit _)
      exact ⟨B, st, hB⟩

/-- C67: the same with pairs of points, for classification targets, one or more float features and a fair
generator. -/
theorem C67_two_points [FloorRing K] (hT : LawfulTarget c.T pair)
    (hs : IsArgsort (exactOps K).le (fun _ => True) c.A.argsort) (hdim : 0 < c.nDim) (G : Rng R K)
    (hG : LawfulRng G) (hfair : FairRng G) (hy : ∀ i < n, ∃ k : Nat, c.y i = (k : K)) (m : Nat) :
    ∃ B t, ∀ b, B ≤ b → hFitRoot (withOpt c (twoPointOptimizer G false m b) b) prior n = .ok t :=
  hFitRoot_family c (fun b => twoPointOptimizer G false m b) false (fun _ => rfl) prior n
    fun pr lv R hR => by
      obtain ⟨F, hF⟩ := C53_terminates_partial G false m
        (hProblem (withOpt c (twoPointOptimizer G false m 0) 0) pr lv R) hG hfair hdim
        (fun i hi => hy i (List.mem_range.1 (hR.subset hi)))
      refine solve_ends hT hs (fun n => twoPointSolve_le G false m n _) F
        (Prog.sat_values (hF F le_rfl).1) ?_ _
      rintro r ⟨i, j, v, -, -, -, rfl, hv, -, -⟩
      exact hNormal_fvec rfl hdim v hv

end

/-! ## The hypotheses are satisfiable -/

/-- The classification sample of nine rows and two features, with the modelled hypersphere map. -/
noncomputable def hSampleExact : HCtx ℝ (List ℝ) ℝ (List ℝ) :=
  { hSampleReal 0 with A := exactArith (insArgsort (exactOps ℝ).le) }

example : ∃ B t, ∀ b, B ≤ b → hFitRoot (withOpt hSampleExact (saOptimizer (counterRng ℝ) 10 3 (1/2) b) b)
    (some [1, 1]) 9 = .ok t :=
  C67_annealing (pair := clsPair realFns) hSampleExact _ 9 (cls_lawful realFns) rfl realSort_spec
    (by decide) (counterRng ℝ) counterRng_lawful 10 3 (by decide) (by decide) _

example : ∃ B t, ∀ b, B ≤ b → hFitRoot (withOpt hSampleExact (gdOptimizer (counterRng ℝ) 10 3 b) b)
    (some [1, 1]) 9 = .ok t :=
  C67_descent (pair := clsPair realFns) _ 9 hSampleExact (cls_lawful realFns) rfl realSort_spec
    (by decide) (counterRng ℝ) counterRng_lawful 10 3 (by decide) (by decide)

example : ∃ B t, ∀ b, B ≤ b → hFitRoot (withOpt hSampleExact (quasiOptimizer 2 7) b) (some [1, 1]) 9 = .ok t :=
  C67_quasi (pair := clsPair realFns) hSampleExact _ 9 (cls_lawful realFns) rfl realSort_spec (by decide) 2 7

example : ∃ B t, ∀ b, B ≤ b → hFitRoot (withOpt hSampleExact (randomOptimizer (counterRng ℝ) 7) b)
    (some [1, 1]) 9 = .ok t :=
  C67_random (pair := clsPair realFns) hSampleExact _ 9 (cls_lawful realFns) realSort_spec (by decide)
    (counterRng ℝ) counterRng_lawful 7

/-- Integer targets, also for the two-point optimizer (over the rationals). -/
example : ∃ B t, ∀ b, B ≤ b →
    hFitRoot (withOpt (hSampleCtx 0) (twoPointOptimizer (counterRng ℚ) false 5 b) b) (some [1, 1]) 9 = .ok t :=
  C67_two_points (pair := probPair) (hSampleCtx 0) _ 9 (prob_lawful ℚ)
    (insArgsort_spec (exact_lawful (le_refl (0 : ℚ)))) (by decide)
    (counterRng ℚ) counterRng_lawful counterRng_fair
    (fun i hi => by
      have : ∀ i < 9, hSampleY i = 0 ∨ hSampleY i = 1 := by decide +kernel
      rcases this i hi with h | h
      · exact ⟨0, by rw [Nat.cast_zero]; exact h⟩
      · exact ⟨1, by rw [Nat.cast_one]; exact h⟩) 5

end BT
