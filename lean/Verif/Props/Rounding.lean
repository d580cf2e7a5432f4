import Verif.Lemmas.Rounding
import Verif.Lemmas.Shape
import Verif.Lemmas.Sim
import Verif.Props.Fit
import Verif.Props.Prune
import Verif.Props.Greedy

/-!
# C43: rounding of midpoints
-/

namespace BT
open Spec

set_option linter.unusedSectionVars false

section
variable {K P S O : Type} [Field K] [LinearOrder K] [IsStrictOrderedRing K] {F : K → Prop} {rnd : K → K}

theorem Spec.RoundsTo.zero (h : RoundsTo F rnd) : rnd 0 = 0 := by
  have := h.near 0 _ (h.half _ (h.mem 0))
  rw [sub_zero, sub_zero, abs_mul, abs_of_pos (by norm_num : (0 : K) < 1 / 2)] at this
  have h0 := abs_nonneg (rnd 0)
  exact abs_eq_zero.1 (by linarith)

theorem round_gap_lt (h : RoundsTo F rnd) {prec a b : K} (hp : 0 ≤ prec) (hab : a ≤ b)
    (hg : (roundOps rnd).gap prec a b = true) : a < b := by
  rcases hab.lt_or_eq with g | rfl
  · exact g
  · have := of_decide_eq_true hg
    rw [sub_self, h.zero, abs_zero] at this
    exact absurd this (not_lt.2 hp)

/-- C43, one split between the floats `a < b`: of the training rows of the node (values up to `a`, or
from `b` on) exactly those with value `a` are sent to the wrong side, and only if the midpoint is
rounded to `a`.  That happens only if no float lies between `a` and `b`. -/
theorem C43_route (h : RoundsTo F rnd) (a b x : K) (ha : F a) (hb : F b) (hab : a < b)
    (hx : x ≤ a ∨ b ≤ x) :
    (((roundOps rnd).lt x ((roundOps rnd).mid a b) = decide (x ≤ a) ∧
      (roundOps rnd).ge x ((roundOps rnd).mid a b) = decide (b ≤ x)) ↔
        ¬ (x = a ∧ (roundOps rnd).mid a b = a)) ∧
    ((roundOps rnd).mid a b = a → ∀ f, F f → ¬ (a < f ∧ f < b)) := by
  obtain ⟨m1, m2⟩ := h.mid_between ha hb hab.le
  refine ⟨?_, fun hm => h.adjacent hm⟩
  set m := (roundOps rnd).mid a b
  have e1 : (roundOps rnd).lt x m = decide (x < m) := rfl
  have e2 : (roundOps rnd).ge x m = decide (m ≤ x) := rfl
  rw [e1, e2, decide_eq_decide, decide_eq_decide]
  constructor
  · rintro ⟨h1, h2⟩ ⟨g1, g2⟩
    have := h1.2 g1.le
    rw [g1, g2] at this
    exact absurd this (lt_irrefl _)
  · intro hn
    rcases hx with hx | hx
    · have : x < m := by
        rcases hx.lt_or_eq with g | g
        · linarith
        · rcases m1.lt_or_eq with g' | g'
          · linarith
          · exact absurd ⟨g, g'.symm⟩ hn
      exact ⟨⟨fun _ => hx, fun _ => this⟩, ⟨fun g => absurd this (not_lt.2 g), fun g => absurd hab (by
        exact not_lt.2 (g.trans hx))⟩⟩
    · exact ⟨⟨fun g => absurd g (not_lt.2 (m2.trans hx)), fun g => absurd hab (not_lt.2 (hx.trans g))⟩,
        ⟨fun _ => hx, fun _ => m2.trans hx⟩⟩

/-- Rounded arithmetic is lawful on data without neighbouring floats. -/
theorem roundOps_lawful (h : RoundsTo F rnd) {prec : K} (hp : 0 ≤ prec) {ok : K → Prop}
    (hF : ∀ x, ok x → F x) (hsep : ∀ a b, ok a → ok b → a < b → ∃ f, F f ∧ a < f ∧ f < b) :
    LawfulOps (roundOps rnd) ok prec where
  le_trans a b c _ _ _ h1 h2 := by
    simp only [roundOps, decide_eq_true_eq] at *
    exact h1.trans h2
  le_total a b _ _ := by
    simp only [roundOps, decide_eq_true_eq]
    exact le_total a b
  le_antisymm a b _ _ h1 h2 := by
    simp only [roundOps, decide_eq_true_eq] at *
    exact le_antisymm h1 h2
  below a b x ha hb hx hab hg hxa := by
    have hlt := round_gap_lt h hp (of_decide_eq_true hab) hg
    have hxa : x ≤ a := of_decide_eq_true hxa
    obtain ⟨h1, h2⟩ := C43_route h a b x (hF a ha) (hF b hb) hlt (.inl hxa)
    obtain ⟨r1, r2⟩ := h1.2 fun g => by
      obtain ⟨f, ff, g1⟩ := hsep a b ha hb hlt
      exact h2 g.2 f ff g1
    rw [r1, r2]
    exact ⟨decide_eq_true hxa, decide_eq_false (by intro g; linarith)⟩
  above a b x ha hb hx hab hg hbx := by
    have hlt := round_gap_lt h hp (of_decide_eq_true hab) hg
    have hbx : b ≤ x := of_decide_eq_true hbx
    obtain ⟨h1, h2⟩ := C43_route h a b x (hF a ha) (hF b hb) hlt (.inr hbx)
    obtain ⟨r1, r2⟩ := h1.2 fun g => by linarith [g.1]
    rw [r1, r2]
    exact ⟨decide_eq_false (by intro g; linarith), decide_eq_true hbx⟩

variable [LinearOrder S]

/-- C43 for data in which no two values are neighbouring floats: with rounded differences and midpoints,
predict routes every training row to the node where fit put it – each node's row count and (for
`delta = 0`) posterior are those of the rows routed to it. -/
theorem C43_fit_partial (hr : RoundsTo F rnd) (c : Ctx K K P S O) (ho : c.o = roundOps rnd)
    (hT : LawfulTarget c.T c.pair) {n : Nat} (ok : K → Prop) {argsort : List K → List Nat}
    (hs : IsArgsort c.o.le ok argsort) (hdim : 0 < c.nDim) (hn : n ≤ 2 ^ 64)
    (hprec : 0 ≤ c.hp.splitPrecision) (hX : ∀ i < n, ∀ d < c.nDim, ok (c.X i d))
    (hF : ∀ x, ok x → F x) (hsep : ∀ a b, ok a → ok b → a < b → ∃ f, F f ∧ a < f ∧ f < b)
    {prior : Option P} {t : PNode K S K P} (h : fitIn c argsort prior n = .ok t)
    (addr : List Bool) (u : PNode K S K P) (hu : nodeAt t addr = some u) :
    u.info.nData = (routed c t n addr).length ∧
    (c.hp.delta = 0 →
      u.info.posterior = c.T.posterior (c.ys (routed c t n addr)) (c.T.getPrior prior n c.nDim) 1) := by
  have hv : Valid ok c argsort n :=
    { ops := by rw [ho]; exact roundOps_lawful hr hprec hF hsep
      target := hT, sort := hs, dims := hdim, rows := hn, vals := hX }
  exact ⟨C08_rows_routed_back hv h addr u hu, fun hδ => C09_posteriors hv h hδ addr u hu⟩

/-- Rounded differences with exact midpoints. -/
def exactMidOps (rnd : K → K) : XOps K K := { roundOps rnd with mid := (exactOps K).mid }

theorem exactMidOps_lawful (h : RoundsTo F rnd) {prec : K} (hp : 0 ≤ prec) :
    LawfulOps (exactMidOps rnd) (fun _ => True) prec where
  le_trans a b c _ _ _ h1 h2 := decide_eq_true ((of_decide_eq_true h1).trans (of_decide_eq_true h2))
  le_total a b _ _ := by
    simp only [exactMidOps, roundOps, decide_eq_true_eq]
    exact le_total a b
  le_antisymm a b _ _ h1 h2 := le_antisymm (of_decide_eq_true h1) (of_decide_eq_true h2)
  below a b x ha hb hx hab hg hxa := by
    have hlt := round_gap_lt h hp (of_decide_eq_true hab) hg
    have hxa : x ≤ a := of_decide_eq_true hxa
    exact ⟨decide_eq_true (by show x < (1 / 2) * (a + b); linarith),
      decide_eq_false (by show ¬ (1 / 2) * (a + b) ≤ x; linarith)⟩
  above a b x ha hb hx hab hg hbx := by
    have hlt := round_gap_lt h hp (of_decide_eq_true hab) hg
    have hbx : b ≤ x := of_decide_eq_true hbx
    exact ⟨decide_eq_false (by show ¬ x < (1 / 2) * (a + b); linarith),
      decide_eq_true (by show (1 / 2) * (a + b) ≤ x; linarith)⟩

/-- Thresholds of the rounded and of the exact fit. -/
def RoundedMid (rnd : K → K) (v v' : K) : Prop := ∃ s, v' = (1 / 2) * s ∧ v = rnd ((1 / 2) * rnd s)

theorem sameShape_hp {R : K → K → Prop} (hp : Hyper K) {t0 t : PNode K S K P}
    (h : SameShape (SplitRel R) t0 t) (hhp : ∀ addr u, nodeAt t addr = some u → u.info.hp = hp) :
    SameShape (SplitRel R) t0 (mapTree hp (fun _ => id) id id t) := by
  have hi : ∀ i : Info K P, i.hp = hp → mapInfo hp id i = i := by
    intro i h
    cases i
    simp only at h
    subst h
    simp [mapInfo]
  induction h with
  | leaf i =>
    simp only [mapTree, hi i (hhp [] _ rfl)]
    exact .leaf i
  | split i sp sp' l b c1 c2 c1' c2' hs _ _ ih1 ih2 =>
    simp only [mapTree, hi i (hhp [] _ rfl)]
    exact .split _ _ _ _ _ _ _ _ _ hs
      (ih1 fun addr u hu => hhp (false :: addr) u hu) (ih2 fun addr u hu => hhp (true :: addr) u hu)

/-- C43, all float data, default precision: rounding changes nothing in the fitted tree except that each
threshold is the rounded midpoint.  (The tree fitted with exact arithmetic routes training rows
correctly: C08.)  Together with `C43_route` this locates all wrong decisions. -/
theorem C43_structure (hr : RoundsTo F rnd) (c : Ctx K K P S O) (ho : c.o = exactOps K)
    (hprec : c.hp.splitPrecision = 0) {n : Nat} (hn : 0 < n) {argsort argsort' : List K → List Nat}
    (hs : IsArgsort c.o.le (fun _ => True) argsort) (hv : Valid (fun _ => True) c argsort' n)
    (hnames : c.nDim ≤ c.names.length) (prior : Option P) :
    ∃ u u', fitIn { c with o := roundOps rnd } argsort prior n = .ok u ∧
      fitIn c argsort' prior n = .ok u' ∧ SameShape (SplitRel (RoundedMid rnd)) u u' := by
  have hv0 : Valid (fun _ => True) { c with o := exactMidOps rnd } argsort n :=
    { ops := exactMidOps_lawful hr (by rw [hprec])
      target := hv.target
      sort := by rw [ho] at hs; exact hs
      dims := hv.dims
      rows := hv.rows
      vals := fun _ _ _ _ => trivial }
  obtain ⟨u0, h0⟩ := C12_fit_terminates hv0 prior hnames
  have hsim : Sim (fun _ => True) { c with o := exactMidOps rnd } c n
      (fun _ => id) id id id (fun _ => True) (fun _ => True) (fun _ => True) :=
    { nDim := rfl, names := rfl, X := fun _ _ _ _ => rfl, y := fun _ _ => rfl
      le := fun _ a b _ _ => by rw [ho]; rfl
      gap := fun _ a b _ _ _ => by
        rw [ho]
        show decide (_ < |b - a|) = decide (_ < |rnd (b - a)|)
        rw [decide_eq_decide, hprec, abs_pos, abs_pos]
        exact ⟨hr.ne_zero _, fun h h' => h (by rw [h', hr.zero])⟩
      mid := fun _ a b _ _ => by rw [ho]; rfl
      lt := fun _ a v _ => by rw [ho]; rfl
      ge := fun _ a v _ => by rw [ho]; rfl
      okTarget := fun _ _ => trivial
      inj := fun _ _ _ _ h => h
      delta := Iff.rfl
      posterior1 := fun ys p _ _ _ => by simp
      posteriorD := fun _ ys p _ _ _ => by simp
      noSplit := fun lv ys p _ _ _ => by simp
      pair := fun lv p ns a b _ _ _ _ _ _ => by simp
      mono := fun _ _ _ _ => Iff.rfl }
  have h1 := fit_sim hsim hv0 hv hn (prior := prior) (by simp) trivial rfl (fun _ _ _ => Iff.rfl) h0
  rw [Option.map_id] at h1
  have h2 := fitIn_mid (c := { c with o := roundOps rnd }) (o' := exactMidOps rnd)
    (R := RoundedMid rnd) rfl (fun a b => ⟨a + b, rfl, rfl⟩) argsort prior n
  rw [h0] at h2
  cases hu : fitIn { c with o := roundOps rnd } argsort prior n with
  | error e => rw [hu] at h2; exact h2.elim
  | ok u =>
    rw [hu] at h2
    exact ⟨u, _, rfl, h1, sameShape_hp _ h2 fun addr w hw => (C19_hyper hv0 hn h0 addr w hw).1⟩

end

/-- The hypotheses of `C43_fit_partial` can be met: the integers -1000 … 1000 are floats with floats
between them, float64 rounding rounds to nearest, and a sorting routine exists. -/
example : RoundsTo (IsFloat 53) (rndFloat 53 : ℝ → ℝ) ∧
    (∀ x : ℝ, (∃ z : Int, |z| ≤ 1000 ∧ x = z) → IsFloat 53 x) ∧
    (∀ a b : ℝ, (∃ z : Int, |z| ≤ 1000 ∧ a = z) → (∃ z : Int, |z| ≤ 1000 ∧ b = z) → a < b →
      ∃ f, IsFloat 53 f ∧ a < f ∧ f < b) ∧
    IsArgsort (roundOps (rndFloat 53)).le (fun x : ℝ => ∃ z : Int, |z| ≤ 1000 ∧ x = z)
      (insArgsort (roundOps (rndFloat 53)).le) := by
  have hr : RoundsTo (IsFloat 53) (rndFloat 53 : ℝ → ℝ) := rndFloat_rounds 53 (by decide)
  have hF : ∀ x : ℝ, (∃ z : Int, |z| ≤ 1000 ∧ x = z) → IsFloat 53 x := by
    rintro _ ⟨z, hz, rfl⟩
    exact ⟨z, 0, hz.trans (by norm_num), by simp⟩
  have hsep : ∀ a b : ℝ, (∃ z : Int, |z| ≤ 1000 ∧ a = z) → (∃ z : Int, |z| ≤ 1000 ∧ b = z) → a < b →
      ∃ f, IsFloat 53 f ∧ a < f ∧ f < b := by
    rintro _ _ ⟨z, hz, rfl⟩ ⟨w, hw, rfl⟩ hab
    have hzw : z + 1 ≤ w := by exact_mod_cast hab
    have hzw' : (z : ℝ) + 1 ≤ w := by exact_mod_cast hzw
    refine ⟨((2 * z + 1 : Int) : ℝ) * 2 ^ (-1 : Int), ⟨2 * z + 1, -1, ?_, rfl⟩, ?_, ?_⟩
    · rw [abs_le] at hz ⊢
      constructor <;> [skip; skip] <;> norm_num <;> omega
    · push_cast
      rw [zpow_neg_one]
      linarith
    · push_cast
      rw [zpow_neg_one]
      linarith
  exact ⟨hr, hF, hsep, insArgsort_spec (roundOps_lawful (prec := 0) hr (le_refl _) hF hsep)⟩

theorem isFloat_one : IsFloat 53 (1 : ℝ) := ⟨1, 0, by norm_num, by norm_num⟩

/-- `1 + 2^-52` is the float after 1. -/
theorem isFloat_next : IsFloat 53 (1 + 1 / 4503599627370496 : ℝ) :=
  ⟨4503599627370497, -52, by norm_num, by norm_num⟩

/-- In float64 the midpoint of 1 and the next float is rounded to 1. -/
theorem float64_tie : rndFloat 53 (2 + 1 / 4503599627370496 : ℝ) = 2 := by
  rw [rndFloat_eq (e := 1) (by rw [abs_of_pos (by norm_num)]; norm_num)
    (by rw [abs_of_pos (by norm_num)]; norm_num)]
  have hx : (2 + 1 / 4503599627370496 : ℝ) / 2 ^ ((1 : Int) + 1 - (53 : Nat)) = 4503599627370496 + 1 / 2 := by
    norm_num
  have hf : ⌊(4503599627370496 + 1 / 2 : ℝ)⌋ = 4503599627370496 := by
    rw [Int.floor_eq_iff]
    norm_num
  rw [hx]
  have : roundEven (4503599627370496 + 1 / 2 : ℝ) = 4503599627370496 := by
    unfold roundEven
    rw [hf, if_neg (by norm_num), if_neg (by norm_num), if_pos (by decide)]
  rw [this]
  norm_num

/-- The training data of the counterexample. -/
def tieCtx : Ctx ℚ ℚ (List ℚ) ℚ (List ℚ) := oneCtx [(1, 0), (1 + 1 / 4503599627370496, 1)] (99 / 100) 0 false

/-- The tree fitted with exact arithmetic. -/
def tieTree : PNode ℚ ℚ ℚ (List ℚ) :=
  .split ⟨⟨99 / 100, 0, false, 0⟩, some [1, 1], 0, some 1, 2, [2, 2]⟩
    ⟨0, "x0", 1 + 1 / 9007199254740992⟩ (1 / 600) (99 / 400)
    (.leaf ⟨⟨99 / 100, 0, false, 0⟩, some [1, 1], 1, none, 1, [2, 1]⟩)
    (.leaf ⟨⟨99 / 100, 0, false, 0⟩, some [1, 1], 1, none, 1, [1, 2]⟩)

theorem tie_rfit : fitIn tieCtx (insArgsort (exactOps ℚ).le) (some [1, 1]) 2 = .ok tieTree := by
  decide +kernel

/-- C43 is false for float64: with the training values 1 and `1 + 2^-52` (neighbouring floats) the
midpoint is rounded to 1.  Fit puts row 0 (class 0) into the left child, but predict routes it to the
right, and the model predicts class 1 for both training rows. -/
theorem C43_refuted {argsort : List ℝ → List Nat}
    (hs : IsArgsort (exactOps ℝ).le (fun _ => True) argsort) :
    ∃ (c : Ctx ℝ ℝ (List ℝ) ℝ (List ℝ)) (prior : List ℝ) (u c1 : PNode ℝ ℝ ℝ (List ℝ)),
      c.o = roundOps (rndFloat 53) ∧ c.T = clsTarget realFns ∧ GoodPrior prior ∧
      (∀ i < 2, ∀ d < c.nDim, IsFloat 53 (c.X i d)) ∧ c.y 0 = 0 ∧ c.y 1 = 1 ∧
      fitIn c argsort (some prior) 2 = .ok u ∧
      nodeAt u [false] = some c1 ∧ c1.info.nData = 1 ∧ (routed c u 2 [false]).length = 0 ∧
      predict (perpRouter c.o) c.T u c.X 2 = [1, 1] := by
  have h : fitIn (castCtx tieCtx) argsort (some (castL [1, 1])) 2 =
      .ok (castTree ⟨99 / 100, 0, false, 0⟩ tieTree) :=
    cast_fit tie_rfit rfl rfl rfl Nat.zero_lt_one (by decide) (by decide) (le_refl _)
      (by show (0 : ℚ) < 99 / 100; norm_num) (by show (99 / 100 : ℚ) < 1; norm_num) (le_refl _)
      ⟨by simp, by decide +kernel⟩ hs
  have hv : Valid (fun _ => True) (castCtx tieCtx) argsort 2 :=
    castCtx_valid Nat.zero_lt_one (by decide) (le_refl _) hs
  have hr : RoundsTo (IsFloat 53) (rndFloat 53 : ℝ → ℝ) := rndFloat_rounds 53 (by decide)
  obtain ⟨u, u', h1, h2, h3⟩ := C43_structure hr (castCtx tieCtx) rfl
    (by simp [castCtx, castHp, tieCtx, oneCtx]) (by decide) hs hv (by decide) (some (castL [1, 1]))
  rw [h] at h2
  cases h2
  have x0 : ∀ d, (castCtx tieCtx).X 0 d = 1 := by intro d; simp [castCtx, tieCtx, oneCtx]
  have x1 : ∀ d, (castCtx tieCtx).X 1 d = 1 + 1 / 4503599627370496 := by
    intro d; simp [castCtx, tieCtx, oneCtx]
  unfold castTree tieTree mapTree at h3
  cases h3 with
  | split _ sp _ _ _ c1 c2 _ _ hR hc1 hc2 =>
    unfold mapTree at hc1 hc2
    cases hc1
    cases hc2
    obtain ⟨hdim, -, s, hs1, hs2⟩ := hR
    have hs1 : s = 2 + 1 / 4503599627370496 := by
      simp only at hs1
      push_cast at hs1
      linarith
    have hval : sp.value = 1 := by
      rw [hs2, hs1, float64_tie]
      norm_num
      exact hr.fixed isFloat_one
    have hlt : ∀ i < 2, ¬ (castCtx tieCtx).X i sp.dim < sp.value := by
      intro i hi
      rw [hval, not_lt]
      have : i = 0 ∨ i = 1 := by omega
      rcases this with rfl | rfl
      · rw [x0]
      · rw [x1]; norm_num
    refine ⟨{ castCtx tieCtx with o := roundOps (rndFloat 53) }, castL [1, 1], _, _, rfl, rfl,
      ⟨by simp [castL], by intro a ha; simp [castL] at ha; rw [ha]; norm_num⟩, ?_, ?_, ?_, h1, rfl, rfl, ?_, ?_⟩
    · intro i hi d _
      have : i = 0 ∨ i = 1 := by omega
      rcases this with rfl | rfl
      · exact (x0 d) ▸ isFloat_one
      · exact (x1 d) ▸ isFloat_next
    · simp [castCtx, tieCtx, oneCtx]
    · simp [castCtx, tieCtx, oneCtx]
    · rw [List.length_eq_zero_iff]
      refine List.filter_eq_nil_iff.2 fun i hi => ?_
      have g : (perpRouter (roundOps (rndFloat 53))).goes1 sp ((castCtx tieCtx).X i) = false :=
        decide_eq_false (hlt i (List.mem_range.1 hi))
      simp [passes, g]
    · refine (predictRows_right _ ?_ _ _ _ _ _ _ _ _ _ _ ?_ ?_).trans ?_
      · intro sp x ⟨g1, g2⟩
        exact absurd (of_decide_eq_true g2) (not_le.2 (of_decide_eq_true g1))
      · exact fun i hi => decide_eq_false (hlt i hi)
      · exact fun i hi => decide_eq_true (not_lt.1 (hlt i hi))
      · show List.replicate 2 ((clsTarget realFns).predictLeaf (castL [1, 2])) = _
        rw [predictLeaf_12]
        rfl

end BT
