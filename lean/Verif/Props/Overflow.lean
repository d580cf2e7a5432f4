import Verif.Lemmas.Overflow
import Verif.Props.Rounding
import Verif.Props.NonFinite

/-!
# C123: features of any size in float64

`0.5 * (a + b)` overflows for large values, and is rounded for the smallest ones.
-/

namespace BT
open Spec

set_option linter.unusedSectionVars false

section
variable {K P O : Type} [Field K] [LinearOrder K] [IsStrictOrderedRing K] {F : K → Prop} {rnd : K → K} {M : K}
  {G : Fns K} {T : Target K P K O} {ml : P → List K → K} {post : P → List K → P} {hp : Hyper K}
  {argsort : List (XF K) → List Nat} {argsort' : List K → List Nat} {prior : Option P} {X : Nat → Nat → K} {y : Nat → K}
  {n nDim : Nat} {names : List String}

theorem rounded_cases (rnd : K → K) (M x : K) :
    (M < rnd x ∧ XF.rounded rnd M (.fin x) = .pinf) ∨
    (rnd x < -M ∧ ¬ M < rnd x ∧ XF.rounded rnd M (.fin x) = .ninf) ∨
    (¬ M < rnd x ∧ ¬ rnd x < -M ∧ XF.rounded rnd M (.fin x) = .fin (rnd x)) := by
  unfold XF.rounded
  simp only
  split
  · next h => exact .inl ⟨h, rfl⟩
  · next h =>
    split
    · next g => exact .inr (.inl ⟨g, h, rfl⟩)
    · next g => exact .inr (.inr ⟨h, g, rfl⟩)

/-- The threshold between two floats: infinite if their sum overflows, and otherwise between them. -/
theorem float_mid (h : FloatFormat F rnd) {a b : K} (ha : F a) (hb : F b) (hab : a < b) (haM : |a| ≤ M)
    (hbM : |b| ≤ M) :
    (M < rnd (a + b) ∧ (floatOps rnd M).mid (.fin a) (.fin b) = .pinf) ∨
    (rnd (a + b) < -M ∧ (floatOps rnd M).mid (.fin a) (.fin b) = .ninf) ∨
    (|rnd (a + b)| ≤ M ∧ ∃ m, (floatOps rnd M).mid (.fin a) (.fin b) = .fin m ∧ a ≤ m ∧ m ≤ b ∧
      (m = a → ∀ f, F f → ¬ (a < f ∧ f < b))) := by
  have e : (floatOps rnd M).mid (.fin a) (.fin b) = XF.rounded rnd M (XF.half (XF.rounded rnd M (.fin (a + b)))) := rfl
  rw [e]
  rcases rounded_cases rnd M (a + b) with ⟨h1, h2⟩ | ⟨h1, -, h2⟩ | ⟨h1, h3, h2⟩ <;> rw [h2]
  · exact .inl ⟨h1, rfl⟩
  · exact .inr (.inl ⟨h1, rfl⟩)
  · refine .inr (.inr ⟨_root_.abs_le.2 ⟨not_lt.1 h3, not_lt.1 h1⟩, rnd ((1 / 2) * rnd (a + b)), ?_⟩)
    obtain ⟨-, g1, g2⟩ := h.between ha hb hab.le
    refine ⟨?_, g1, g2, fun hm => h.adjacent ha hb hm⟩
    have ha' := _root_.abs_le.1 haM
    have hb' := _root_.abs_le.1 hbM
    rcases rounded_cases rnd M ((1 / 2) * rnd (a + b)) with ⟨k, -⟩ | ⟨k, -⟩ | ⟨-, -, k⟩
    · linarith
    · linarith
    · exact k

/-- C123, one split between the floats `a < b`: of the training rows of the node (values up to `a`, or from `b` on) exactly
these are sent to the wrong side: those with value `a` if the threshold is `a`, which happens only if no float lies between
`a` and `b`; those on the right if the threshold is `inf`, which happens if and only if `a + b` overflows; those on the left
if it is `-inf`. Half the largest float is never too large. -/
theorem C123_route (h : FloatFormat F rnd) (hM : 0 ≤ M) (a b x : K) (ha : F a) (hb : F b) (hab : a < b) (haM : |a| ≤ M)
    (hbM : |b| ≤ M) (hx : x ≤ a ∨ b ≤ x) :
    (((floatOps rnd M).lt (.fin x) ((floatOps rnd M).mid (.fin a) (.fin b)) = decide (x ≤ a) ∧
      (floatOps rnd M).ge (.fin x) ((floatOps rnd M).mid (.fin a) (.fin b)) = decide (b ≤ x)) ↔
        ¬ (x = a ∧ (floatOps rnd M).mid (.fin a) (.fin b) = .fin a) ∧
        ¬ (b ≤ x ∧ (floatOps rnd M).mid (.fin a) (.fin b) = .pinf) ∧
        ¬ (x ≤ a ∧ (floatOps rnd M).mid (.fin a) (.fin b) = .ninf)) ∧
    ((floatOps rnd M).mid (.fin a) (.fin b) = .fin a → ∀ f, F f → ¬ (a < f ∧ f < b)) ∧
    ((floatOps rnd M).mid (.fin a) (.fin b) = .pinf ↔ M < rnd (a + b)) ∧
    ((floatOps rnd M).mid (.fin a) (.fin b) = .ninf ↔ rnd (a + b) < -M) ∧
    (F M → F (-M) → |a| ≤ M / 2 → |b| ≤ M / 2 → |rnd (a + b)| ≤ M) := by
  have hlast : F M → F (-M) → |a| ≤ M / 2 → |b| ≤ M / 2 → |rnd (a + b)| ≤ M := by
    intro hFM hFm h1 h2
    have h1 := _root_.abs_le.1 h1
    have h2 := _root_.abs_le.1 h2
    have hneg : -M ≤ rnd (a + b) := by
      have := h.mono (show -M ≤ a + b by linarith)
      rwa [h.fixed hFm] at this
    exact _root_.abs_le.2 ⟨hneg, by
      have := h.mono (show a + b ≤ M by linarith)
      rwa [h.fixed hFM] at this⟩
  set t := (floatOps rnd M).mid (.fin a) (.fin b) with ht
  have e1 : (floatOps rnd M).lt (.fin x) t = XF.lt (.fin x) t := rfl
  have e2 : (floatOps rnd M).ge (.fin x) t = XF.ge (.fin x) t := rfl
  rw [e1, e2]
  rcases float_mid h ha hb hab haM hbM with ⟨h1, h2⟩ | ⟨h1, h2⟩ | ⟨h1, m, h2, h3, h4, h5⟩ <;> rw [← ht] at h2 <;> rw [h2]
  · refine ⟨?_, by simp, by simp [h1], ?_, hlast⟩
    · simp only [XF.lt, XF.ge, reduceCtorEq, and_false, not_false_eq_true, true_and, and_true]
      constructor
      · rintro ⟨-, g2⟩ g
        simp [g] at g2
      · intro g
        have hxa : x ≤ a := hx.resolve_right g
        simp [hxa, g]
    · simp only [reduceCtorEq, false_iff, not_lt]
      linarith
  · refine ⟨?_, by simp, ?_, by simp [h1], hlast⟩
    · simp only [XF.lt, XF.ge, reduceCtorEq, and_false, not_false_eq_true, true_and, and_true]
      constructor
      · rintro ⟨g1, -⟩ g
        simp [g] at g1
      · intro g
        have hxb : b ≤ x := hx.resolve_left g
        simp [hxb, not_le.1 g]
    · simp only [reduceCtorEq, false_iff, not_lt]
      linarith
  · have hb1 := _root_.abs_le.1 h1
    refine ⟨?_, ?_, by simp [hb1.2], by simp [hb1.1], hlast⟩
    · simp only [XF.lt, XF.ge, reduceCtorEq, and_false, not_false_eq_true, and_true, XF.fin.injEq]
      rw [decide_eq_decide, decide_eq_decide]
      constructor
      · rintro ⟨g1, g2⟩ ⟨k1, k2⟩
        have := g1.2 k1.le
        rw [k1, k2] at this
        exact lt_irrefl _ this
      · intro hn
        rcases hx with hx | hx
        · have : x < m := by
            rcases hx.lt_or_eq with g | g
            · linarith
            · rcases h3.lt_or_eq with g' | g'
              · linarith
              · exact absurd ⟨g, g'.symm⟩ hn
          exact ⟨⟨fun _ => hx, fun _ => this⟩, ⟨fun g => absurd this (not_lt.2 g), fun g => absurd hab
            (not_lt.2 (g.trans hx))⟩⟩
        · exact ⟨⟨fun g => absurd g (not_lt.2 (h4.trans hx)), fun g => absurd hab (not_lt.2 (hx.trans g))⟩,
            ⟨fun _ => hx, fun _ => h4.trans hx⟩⟩
    · intro hm
      exact h5 (XF.fin.inj hm)

/-- Differences of floats are rounded to zero only if the floats are equal. -/
theorem float_gap_zero (h : FloatFormat F rnd) (hM : 0 ≤ M) {a b : K} (ha : F a) (hb : F b) :
    (floatOps rnd M).gap 0 (.fin a) (.fin b) = decide (0 < |b - a|) := by
  have e : (floatOps rnd M).gap 0 (.fin a) (.fin b) = XF.absGt 0 (XF.rounded rnd M (.fin (b - a))) := by
    rw [sub_eq_add_neg]; rfl
  rw [e]
  have h0 : rnd 0 = 0 := h.fixed h.zero
  have hne : rnd (b - a) ≠ 0 → b - a ≠ 0 := fun g g' => g (by rw [g', h0])
  have hab : b - a ≠ 0 → rnd (b - a) ≠ 0 := fun g => h.difference a b ha hb fun e => g (by rw [e, sub_self])
  rcases rounded_cases rnd M (b - a) with ⟨h1, h2⟩ | ⟨h1, -, h2⟩ | ⟨h1, h3, h2⟩ <;> rw [h2]
  · exact (decide_eq_true (abs_pos.2 (hne (by linarith)))).symm
  · exact (decide_eq_true (abs_pos.2 (hne (by linarith)))).symm
  · show decide (0 < |rnd (b - a)|) = _
    rw [decide_eq_decide, abs_pos, abs_pos]
    exact ⟨hne, hab⟩

/-- A gap of any precision lies between different floats. -/
theorem float_gap_lt (h : FloatFormat F rnd) (hM : 0 ≤ M) {prec a b : K} (hp : 0 ≤ prec) (hab : a ≤ b)
    (hg : (floatOps rnd M).gap prec (.fin a) (.fin b) = true) : a < b := by
  rcases hab.lt_or_eq with g | rfl
  · exact g
  · have e : (floatOps rnd M).gap prec (.fin a) (.fin a) = XF.absGt prec (XF.rounded rnd M (.fin (a - a))) := by
      rw [sub_eq_add_neg]; rfl
    rw [e, sub_self] at hg
    have h0 : rnd 0 = 0 := h.fixed h.zero
    unfold XF.rounded at hg
    simp only [h0] at hg
    rw [if_neg (not_lt.2 hM), if_neg (by linarith)] at hg
    have := of_decide_eq_true hg
    rw [abs_zero] at this
    exact absurd this (not_lt.2 hp)

/-- The threshold in floating-point arithmetic where exact arithmetic has the threshold `w`, the half of `2 * w`. -/
def FloatThreshold (rnd : K → K) (M : K) (v : XF K) (w : K) : Prop :=
  v = XF.rounded rnd M (XF.half (XF.rounded rnd M (.fin (2 * w))))

/-- Rounded differences with exact midpoints, on the values of `sideOps`. -/
def floatGapOps (rnd : K → K) (M : K) : XOps (XF K) K := { sideOps K with gap := (floatOps rnd M).gap }

theorem floatGap_lawful (h : FloatFormat F rnd) (hM : 0 ≤ M) :
    LawfulOps (floatGapOps rnd M) (fun v : XF K => ∃ x, v = .fin x ∧ F x) 0 where
  le_trans a b c _ _ _ h1 h2 := xf_le_trans a b c h1 h2
  le_total a b _ _ := xf_le_total a b
  le_antisymm a b _ _ h1 h2 := xf_le_antisymm a b h1 h2
  below a b x ha hb _ hle hg hx := by
    obtain ⟨a, rfl, ha⟩ := ha
    obtain ⟨b, rfl, hb⟩ := hb
    refine (side_lawful (le_refl (0 : K))).below (.fin a) (.fin b) x trivial trivial trivial hle ?_ hx
    have hg := (float_gap_zero h hM ha hb).symm.trans hg
    show decide (0 < |b + -a|) = true
    rwa [← sub_eq_add_neg]
  above a b x ha hb _ hle hg hx := by
    obtain ⟨a, rfl, ha⟩ := ha
    obtain ⟨b, rfl, hb⟩ := hb
    refine (side_lawful (le_refl (0 : K))).above (.fin a) (.fin b) x trivial trivial trivial hle ?_ hx
    have hg := (float_gap_zero h hM ha hb).symm.trans hg
    show decide (0 < |b + -a|) = true
    rwa [← sub_eq_add_neg]

theorem float_shape {R : XF K → XF K → Prop} {Q : XF K → K → Prop} (hRQ : ∀ v w, R v (.fin w) → Q v w)
    {S : Type} (hp : Hyper K) {t0 : PNode (XF K) S K P} {t : PNode K S K P}
    (h : SameShape (SplitRel R) t0 (mapTree hp (fun _ v => XF.fin v) id id t))
    (hhp : ∀ addr u, nodeAt t addr = some u → u.info.hp = hp) : SameShape (SplitRel Q) t0 t := by
  have hi : ∀ i : Info K P, i.hp = hp → mapInfo hp id i = i := by
    intro i h
    cases i
    simp only at h
    subst h
    simp [mapInfo]
  induction t generalizing t0 with
  | leaf i =>
    have := hi i (hhp [] _ rfl)
    simp only [mapTree, this] at h
    cases h
    exact .leaf i
  | split i sp l b c1 c2 ih1 ih2 =>
    have := hi i (hhp [] _ rfl)
    simp only [mapTree, this, id] at h
    cases h with
    | split _ sp0 _ _ _ d1 d2 _ _ hs h1 h2 =>
      obtain ⟨g1, g2, g3⟩ := hs
      exact .split _ _ _ _ _ _ _ _ _ ⟨g1, g2, hRQ _ _ g3⟩
        (ih1 h1 fun addr u hu => hhp (false :: addr) u hu) (ih2 h2 fun addr u hu => hhp (true :: addr) u hu)

/-- C123, all float data, default precision: rounding, underflow and overflow change nothing in the fitted tree except the
thresholds.  (The tree fitted with exact arithmetic routes training rows correctly: C08.)  Together with `C123_route` this
locates all wrong decisions. -/
theorem C123_structure (hf : FloatFormat F rnd) (hM : 0 ≤ M) (hT : CodeTarget G T ml post)
    (hr : AnyTraining hp argsort n nDim) (hr' : Training hp argsort' n nDim) (hprec : hp.splitPrecision = 0)
    (hX : ∀ i < n, ∀ d < nDim, F (X i d)) (hnames : nDim ≤ names.length) :
    ∃ u u', perpFitRoot (floatOps rnd M) T argsort hp prior (fun i d => .fin (X i d)) y n nDim names = .ok u ∧
      perpFitRoot (exactOps K) T argsort' hp prior X y n nDim names = .ok u' ∧
      SameShape (SplitRel (FloatThreshold rnd M)) u u' := by
  have hv := hr'.valid hT (X := X) (y := y) (names := names)
  obtain ⟨u', h0⟩ := C12_fit_terminates hv prior hnames
  have hvF : Valid F (exactCtx T (mlPair G ml) hp X y nDim names) argsort' n :=
    { ops := ⟨fun a b c _ _ _ => hv.ops.le_trans a b c trivial trivial trivial,
        fun a b _ _ => hv.ops.le_total a b trivial trivial,
        fun a b _ _ => hv.ops.le_antisymm a b trivial trivial,
        fun a b x _ _ _ => hv.ops.below a b x trivial trivial trivial,
        fun a b x _ _ _ => hv.ops.above a b x trivial trivial trivial⟩
      target := hv.target
      sort := ⟨fun xs _ => (hr'.isArgsort).perm xs fun _ _ => trivial,
        fun xs _ => (hr'.isArgsort).sorted xs fun _ _ => trivial⟩
      dims := hv.dims, rows := hv.rows, vals := hX }
  have hv1 : Valid (fun v : XF K => ∃ x, v = .fin x ∧ F x)
      { anyCtx T (mlPair G ml) hp (fun i d => .fin (X i d)) y nDim names with o := floatGapOps rnd M } argsort n :=
    { ops := by
        show LawfulOps _ _ hp.splitPrecision
        rw [hprec]; exact floatGap_lawful hf hM
      target := hv.target
      sort := ⟨fun xs _ => (hr.sort xs).1, fun xs _ => (hr.sort xs).2⟩
      dims := hr.dims, rows := hr.rows, vals := fun i hi d hd => ⟨_, rfl, hX i hi d hd⟩ }
  have hsim : Sim F (exactCtx T (mlPair G ml) hp X y nDim names)
      { anyCtx T (mlPair G ml) hp (fun i d => .fin (X i d)) y nDim names with o := floatGapOps rnd M } n
      (fun _ v => .fin v) id id id (fun _ => True) (fun _ => True) (fun _ => True) :=
    { nDim := rfl, names := rfl, X := fun _ _ _ _ => rfl, y := fun _ _ => rfl
      le := fun _ a b _ _ => rfl
      gap := fun _ a b ha hb _ => by
        show (floatOps rnd M).gap hp.splitPrecision _ _ = (exactOps K).gap hp.splitPrecision a b
        rw [hprec, float_gap_zero hf hM ha hb]
        rfl
      mid := fun _ a b _ _ => rfl
      lt := fun _ a v _ => by
        show trainedLeft (.fin v) (.fin a) = _
        simp [trainedLeft, XF.lt, exactOps]
      ge := fun _ a v _ => by
        show (!trainedLeft (.fin v) (.fin a)) = decide (v ≤ a)
        simp [trainedLeft, XF.lt, ← decide_not]
      okTarget := fun _ _ => trivial
      inj := fun _ _ _ _ h => h
      delta := Iff.rfl
      posterior1 := fun ys p _ _ _ => by simp [anyCtx]
      posteriorD := fun _ ys p _ _ _ => by simp [anyCtx]
      noSplit := fun lv ys p _ _ _ => by simp [anyCtx]
      pair := fun lv p ns a b _ _ _ _ _ _ => by simp [anyCtx]
      mono := fun _ _ _ _ => Iff.rfl }
  have h1 := fit_sim hsim hvF hv1 hr'.someRow (prior := prior) (by simp [anyCtx]) trivial rfl
    (fun _ _ _ => Iff.rfl) h0
  rw [Option.map_id] at h1
  have h2 := fitIn_mid
    (c := { anyCtx T (mlPair G ml) hp (fun i d => .fin (X i d)) y nDim names with o := floatOps rnd M })
    (o' := floatGapOps rnd M)
    (R := fun v v' => ∃ s, v' = XF.half s ∧ v = XF.rounded rnd M (XF.half (XF.rounded rnd M s)))
    rfl (fun a b => ⟨XF.add a b, rfl, rfl⟩) argsort prior n
  replace h1 : fitIn { anyCtx T (mlPair G ml) hp (fun i d => .fin (X i d)) y nDim names with o := floatGapOps rnd M }
    argsort prior n = _ := h1
  dsimp only at h2
  rw [h1] at h2
  cases hu : fitIn { anyCtx T (mlPair G ml) hp (fun i d => .fin (X i d)) y nDim names with o := floatOps rnd M }
      argsort prior n with
  | error e => rw [hu] at h2; exact h2.elim
  | ok u =>
    rw [hu] at h2
    refine ⟨u, u', hu, h0, float_shape ?_ hp h2 fun addr w hw => (C19_hyper hv hr'.someRow h0 addr w hw).1⟩
    rintro v w ⟨s, hs1, hs2⟩
    cases s with
    | fin x =>
      have : 2 * w = x := by
        have := XF.fin.inj hs1
        rw [this]; ring
      rw [FloatThreshold, this]
      exact hs2
    | _ => cases hs1

/-- Floating-point arithmetic is lawful on floats up to half the largest float among which there are no neighbours. -/
theorem floatOps_lawful (h : FloatFormat F rnd) (hM : 0 ≤ M) (hFM : F M) (hFm : F (-M)) {prec : K} (hp : 0 ≤ prec)
    {ok : K → Prop} (hF : ∀ x, ok x → F x) (hsmall : ∀ x, ok x → |x| ≤ M / 2)
    (hsep : ∀ a b, ok a → ok b → a < b → ∃ f, F f ∧ a < f ∧ f < b) :
    LawfulOps (floatOps rnd M) (fun v : XF K => ∃ x, v = .fin x ∧ ok x) prec := by
  have hbig : ∀ x, ok x → |x| ≤ M := fun x hx => (hsmall x hx).trans (by linarith)
  have key : ∀ a b x, ok a → ok b → a < b → (x ≤ a ∨ b ≤ x) →
      (floatOps rnd M).lt (.fin x) ((floatOps rnd M).mid (.fin a) (.fin b)) = decide (x ≤ a) ∧
      (floatOps rnd M).ge (.fin x) ((floatOps rnd M).mid (.fin a) (.fin b)) = decide (b ≤ x) := by
    intro a b x ha hb hab hx
    obtain ⟨h1, h2, h3, h4, h5⟩ := C123_route h hM a b x (hF a ha) (hF b hb) hab (hbig a ha) (hbig b hb) hx
    have h5 := _root_.abs_le.1 (h5 hFM hFm (hsmall a ha) (hsmall b hb))
    refine h1.2 ⟨?_, ?_, ?_⟩
    · rintro ⟨-, g⟩
      obtain ⟨f, ff, g1⟩ := hsep a b ha hb hab
      exact h2 g f ff g1
    · rintro ⟨-, g⟩
      exact absurd (h3.1 g) (not_lt.2 h5.2)
    · rintro ⟨-, g⟩
      exact absurd (h4.1 g) (not_lt.2 h5.1)
  refine ⟨fun a b c _ _ _ h1 h2 => xf_le_trans a b c h1 h2, fun a b _ _ => xf_le_total a b,
    fun a b _ _ h1 h2 => xf_le_antisymm a b h1 h2, ?_, ?_⟩
  · rintro _ _ _ ⟨a, rfl, ha⟩ ⟨b, rfl, hb⟩ ⟨x, rfl, hx⟩ hle hg hxa
    have hab := float_gap_lt h hM hp (of_decide_eq_true hle) hg
    have hxa : x ≤ a := of_decide_eq_true hxa
    obtain ⟨r1, r2⟩ := key a b x ha hb hab (.inl hxa)
    rw [r1, r2]
    exact ⟨decide_eq_true hxa, decide_eq_false (by intro g; linarith)⟩
  · rintro _ _ _ ⟨a, rfl, ha⟩ ⟨b, rfl, hb⟩ ⟨x, rfl, hx⟩ hle hg hbx
    have hab := float_gap_lt h hM hp (of_decide_eq_true hle) hg
    have hbx : b ≤ x := of_decide_eq_true hbx
    obtain ⟨r1, r2⟩ := key a b x ha hb hab (.inr hbx)
    rw [r1, r2]
    exact ⟨decide_eq_false (by intro g; linarith), decide_eq_true hbx⟩

/-- C123 for data of at most half the largest float in which no two values are neighbouring floats: `predict` routes every
training row to the node where `fit` put it – each node's row count and (for `delta = 0`) posterior are those of the rows
routed to it.  Missing: the claim for all data, which is false. -/
theorem C123_fit_partial (hf : FloatFormat F rnd) (hM : 0 ≤ M) (hFM : F M) (hFm : F (-M)) (hT : CodeTarget G T ml post)
    (hr : AnyTraining hp argsort n nDim) (hX : ∀ i < n, ∀ d < nDim, F (X i d) ∧ |X i d| ≤ M / 2)
    (hsep : ∀ i < n, ∀ j < n, ∀ d < nDim, ∀ d' < nDim, X i d < X j d' → ∃ f, F f ∧ X i d < f ∧ f < X j d') (p : P)
    {t : PNode (XF K) K K P}
    (h : perpFitRoot (floatOps rnd M) T argsort hp (some p) (fun i d => .fin (X i d)) y n nDim names = .ok t)
    (addr : List Bool) (u : PNode (XF K) K K P) (hu : nodeAt t addr = some u) :
    u.info.nData = (predictedAt (fun i d => .fin (X i d)) t n addr).length ∧
    (hp.delta = 0 → u.info.posterior =
      T.posterior ((predictedAt (fun i d => .fin (X i d)) t n addr).map y) p 1) := by
  have hl : LawfulOps (floatOps rnd M) (fun v : XF K => ∃ x, v = .fin x ∧ ∃ i < n, ∃ d < nDim, x = X i d)
      hp.splitPrecision :=
    floatOps_lawful hf hM hFM hFm hr.precision (ok := fun x => ∃ i < n, ∃ d < nDim, x = X i d)
      (by rintro _ ⟨i, hi, d, hd, rfl⟩; exact (hX i hi d hd).1)
      (by rintro _ ⟨i, hi, d, hd, rfl⟩; exact (hX i hi d hd).2)
      (by rintro _ _ ⟨i, hi, d, hd, rfl⟩ ⟨j, hj, d', hd', rfl⟩ hab; exact hsep i hi j hj d hd d' hd' hab)
  have hv : Valid (fun v : XF K => ∃ x, v = .fin x ∧ ∃ i < n, ∃ d < nDim, x = X i d)
      { anyCtx T (mlPair G ml) hp (fun i d => .fin (X i d)) y nDim names with o := floatOps rnd M } argsort n :=
    { ops := hl, target := hT.textbook.lawful
      sort := ⟨fun xs _ => (hr.sort xs).1, fun xs _ => (hr.sort xs).2⟩
      dims := hr.dims, rows := hr.rows, vals := fun i hi d hd => ⟨_, rfl, i, hi, d, hd, rfl⟩ }
  refine ⟨C08_rows_routed_back hv h addr u hu, fun hδ => ?_⟩
  have := C09_posteriors hv h hδ addr u hu
  rw [hv.target.getPrior_some] at this
  exact this

end

/-- The training data of the counterexample: two values whose sum exceeds the largest float64. -/
def hugeCtx : Ctx ℚ ℚ (List ℚ) ℚ (List ℚ) := oneCtx [(2 ^ 1023, 0), (3 * 2 ^ 1022, 1)] (99 / 100) 0 false

/-- The tree fitted with exact arithmetic. -/
def hugeTree : PNode ℚ ℚ ℚ (List ℚ) :=
  .split ⟨⟨99 / 100, 0, false, 0⟩, some [1, 1], 0, some 1, 2, [2, 2]⟩
    ⟨0, "x0", 5 * 2 ^ 1021⟩ (1 / 600) (99 / 400)
    (.leaf ⟨⟨99 / 100, 0, false, 0⟩, some [1, 1], 1, none, 1, [2, 1]⟩)
    (.leaf ⟨⟨99 / 100, 0, false, 0⟩, some [1, 1], 1, none, 1, [1, 2]⟩)

theorem huge_rfit : fitIn hugeCtx (insArgsort (exactOps ℚ).le) (some [1, 1]) 2 = .ok hugeTree := by
  decide +kernel

theorem predictRows_left {Sp S K P Row O : Type} (rt : Router Sp Row) (hex : Exclusive rt)
    (val : Info K P → O) (init : O) (X : Nat → Row) (m : Nat) (i j : Info K P) (sp : Sp) (l b : S)
    (c2 : Node Sp S K P) (h1 : ∀ r < m, rt.goes1 sp (X r) = true) :
    predictRows rt val init X m (.split i sp l b (.leaf j) c2) = List.replicate m (val j) := by
  apply List.ext_getElem?
  intro r
  by_cases hr : r < m
  · rw [predictRows_getElem? _ hex _ _ _ _ _ _ hr, List.getElem?_replicate, if_pos hr]
    simp [walk, h1 r hr]
  · rw [List.getElem?_eq_none (by rw [predictRows_length]; omega),
      List.getElem?_eq_none (by simp; omega)]

theorem predictLeaf_21 : (clsTarget realFns).predictLeaf (castL [2, 1]) = 0 := by
  show ((argmax (([2, 1] : List ℚ).map (Rat.castHom ℝ)) : Nat) : ℝ) = 0
  rw [argmax_map castHom_strictMono, show argmax ([2, 1] : List ℚ) = 0 by decide +kernel]
  simp

theorem max64_nonneg : (0 : ℝ) ≤ max64 ℝ := by
  unfold max64
  positivity

theorem max64_float : IsFloat64 (max64 ℝ) ∧ IsFloat64 (-max64 ℝ) := by
  have e : (2 : ℝ) ^ (971 : Int) = 2 ^ 971 := zpow_natCast 2 971
  refine ⟨⟨2 ^ 53 - 1, 971, by norm_num, by norm_num, ?_⟩, ⟨-(2 ^ 53 - 1), 971, by norm_num, by norm_num, ?_⟩⟩
  · unfold max64
    rw [e]
    generalize (2 ^ 971 : ℝ) = z
    norm_num
  · unfold max64
    rw [e]
    generalize (2 ^ 971 : ℝ) = z
    norm_num

theorem huge_floats : IsFloat64 (2 ^ 1023 : ℝ) ∧ IsFloat64 (3 * 2 ^ 1022 : ℝ) ∧ IsFloat64 (2 * (5 * 2 ^ 1021) : ℝ) := by
  refine ⟨⟨1, 1023, by norm_num, by norm_num, ?_⟩, ⟨3, 1022, by norm_num, by norm_num, ?_⟩,
    ⟨10, 1021, by norm_num, by norm_num, ?_⟩⟩
  · rw [show (2 : ℝ) ^ (1023 : Int) = 2 ^ 1023 from zpow_natCast 2 1023]; simp
  · rw [show (2 : ℝ) ^ (1022 : Int) = 2 ^ 1022 from zpow_natCast 2 1022]; simp
  · rw [show (2 : ℝ) ^ (1021 : Int) = 2 ^ 1021 from zpow_natCast 2 1021]
    generalize (2 ^ 1021 : ℝ) = z
    push_cast
    ring

theorem max64_bounds : (3 * 2 ^ 1022 : ℝ) ≤ max64 ℝ ∧ (2 ^ 1023 : ℝ) ≤ max64 ℝ ∧ max64 ℝ < 2 * (5 * 2 ^ 1021) := by
  have e1 : (2 ^ 1023 : ℝ) = 2 ^ 52 * 2 ^ 971 := by rw [← pow_add]
  have e2 : (2 ^ 1022 : ℝ) = 2 ^ 51 * 2 ^ 971 := by rw [← pow_add]
  have e3 : (2 ^ 1021 : ℝ) = 2 ^ 50 * 2 ^ 971 := by rw [← pow_add]
  have h : (0 : ℝ) < 2 ^ 971 := by positivity
  unfold max64
  rw [e1, e2, e3]
  generalize (2 ^ 971 : ℝ) = z at h
  refine ⟨?_, ?_, ?_⟩ <;> norm_num <;> linarith

/-- C123 is false in float64: between the training values `2^1023` and `3 * 2^1022` the threshold is `inf`.  Fit puts row 1
(class 1) into the right child, but predict routes it to the left, and the model predicts class 0 for both training rows. -/
theorem C123_refuted {argsort : List (XF ℝ) → List Nat} (hr : AnyTraining ⟨99 / 100, 0, false, 0⟩ argsort 2 1) :
    ∃ (X : Nat → Nat → ℝ) (y : Nat → ℝ) (prior : List ℝ) (u c2 : PNode (XF ℝ) ℝ ℝ (List ℝ)),
      GoodPrior prior ∧ (∀ i < 2, IsFloat64 (X i 0) ∧ |X i 0| ≤ max64 ℝ) ∧ y 0 = 0 ∧ y 1 = 1 ∧
      perpFitRoot (floatOps rnd64 (max64 ℝ)) (clsTarget realFns) argsort ⟨99 / 100, 0, false, 0⟩ (some prior)
        (fun i d => .fin (X i d)) y 2 1 ["x0"] = .ok u ∧
      nodeAt u [true] = some c2 ∧ c2.info.nData = 1 ∧ predictedAt (fun i d => .fin (X i d)) u 2 [true] = [] ∧
      predict (perpRouter (floatOps rnd64 (max64 ℝ))) (clsTarget realFns) u (fun i d => .fin (X i d)) 2 = [0, 0] := by
  have h : fitIn (castCtx hugeCtx) realSort (some (castL [1, 1])) 2 =
      .ok (castTree ⟨99 / 100, 0, false, 0⟩ hugeTree) :=
    cast_fit huge_rfit rfl rfl rfl Nat.zero_lt_one (by decide) (by decide) (le_refl _)
      (by show (0 : ℚ) < 99 / 100; norm_num) (by show (99 / 100 : ℚ) < 1; norm_num) (le_refl _)
      ⟨by simp, by decide +kernel⟩ realSort_spec
  have hhp : (castCtx hugeCtx).hp = ⟨99 / 100, 0, false, 0⟩ := by
    simp [castCtx, castHp, hugeCtx, oneCtx]
  have x0 : ∀ d, (castCtx hugeCtx).X 0 d = 2 ^ 1023 := by intro d; simp [castCtx, hugeCtx, oneCtx]
  have x1 : ∀ d, (castCtx hugeCtx).X 1 d = 3 * 2 ^ 1022 := by intro d; simp [castCtx, hugeCtx, oneCtx]
  obtain ⟨b1, b2, b3⟩ := max64_bounds
  obtain ⟨f1, f2, f3⟩ := huge_floats
  have hX : ∀ i < 2, ∀ d < 1, IsFloat64 ((castCtx hugeCtx).X i d) ∧ |(castCtx hugeCtx).X i d| ≤ max64 ℝ := by
    intro i hi d _
    have : i = 0 ∨ i = 1 := by omega
    rcases this with rfl | rfl
    · rw [x0, abs_of_pos (by positivity)]
      exact ⟨f1, b2⟩
    · rw [x1, abs_of_pos (by positivity)]
      exact ⟨f2, b1⟩
  have hr' : Training (⟨99 / 100, 0, false, 0⟩ : Hyper ℝ) realSort 2 1 :=
    ⟨le_refl _, realSort_sorts, by decide, by decide, by decide⟩
  obtain ⟨u, u', h1, h2, h3⟩ := C123_structure float64_format max64_nonneg (CodeTarget.classification (F := realFns))
    hr hr' rfl (X := (castCtx hugeCtx).X) (y := (castCtx hugeCtx).y) (names := ["x0"]) (prior := some (castL [1, 1]))
    (fun i hi d hd => (hX i hi d hd).1) (by decide)
  have h2' : fitIn (castCtx hugeCtx) realSort (some (castL [1, 1])) 2 = .ok u' := by
    rw [← h2, ← hhp]
    rfl
  rw [h] at h2'
  cases h2'
  unfold castTree hugeTree mapTree at h3
  cases h3 with
  | split _ sp _ _ _ c1 c2 _ _ hR hc1 hc2 =>
    unfold mapTree at hc1 hc2
    cases hc1
    cases hc2
    obtain ⟨hdim, -, hs⟩ := hR
    have hval : sp.value = .pinf := by
      rw [hs]
      have e : (2 * (((5 * 2 ^ 1021 : ℚ)) : ℝ)) = 2 * (5 * 2 ^ 1021) := by push_cast; rfl
      show XF.rounded _ _ (XF.half (XF.rounded _ _ (.fin (2 * (((5 * 2 ^ 1021 : ℚ)) : ℝ))))) = _
      rw [e]
      rcases rounded_cases rnd64 (max64 ℝ) (2 * (5 * 2 ^ 1021)) with ⟨-, g⟩ | ⟨-, g, -⟩ | ⟨g, -⟩
      · rw [g]; rfl
      · rw [float64_format.fixed f3] at g
        exact absurd b3 g
      · rw [float64_format.fixed f3] at g
        exact absurd b3 g
    refine ⟨(castCtx hugeCtx).X, (castCtx hugeCtx).y, castL [1, 1], _, _,
      ⟨by simp [castL], by intro a ha; simp [castL] at ha; rw [ha]; norm_num⟩, fun i hi => hX i hi 0 (by decide),
      ?_, ?_, h1, rfl, rfl, ?_, ?_⟩
    · simp [castCtx, hugeCtx, oneCtx]
    · simp [castCtx, hugeCtx, oneCtx]
    · refine List.filter_eq_nil_iff.2 fun i hi => ?_
      simp [passes, hval, XF.ge]
    · refine (predictRows_left _ ?_ _ _ _ _ _ _ _ _ _ _ ?_).trans ?_
      · intro sp x ⟨g1, g2⟩
        have g1 : XF.lt (x sp.dim) sp.value = true := g1
        have g2 : XF.ge (x sp.dim) sp.value = true := g2
        cases hx : x sp.dim <;> cases hv : sp.value <;> rw [hx, hv] at g1 g2 <;> simp [XF.lt, XF.ge] at g1 g2
        linarith
      · intro i hi
        show XF.lt (.fin _) sp.value = true
        rw [hval]
        rfl
      · show List.replicate 2 ((clsTarget realFns).predictLeaf (castL [2, 1])) = _
        rw [predictLeaf_21]
        rfl

/-- The hypotheses of `C123_route`, `C123_structure` and `C123_fit_partial` can be met: float64 is such a format with largest
number `max64`, sorting routines exist, and the values 0 and 1 are small and not neighbours. -/
example : FloatFormat IsFloat64 (rnd64 : ℝ → ℝ) ∧ (0 : ℝ) ≤ max64 ℝ ∧ IsFloat64 (max64 ℝ) ∧ IsFloat64 (-max64 ℝ) ∧
    AnyTraining (⟨99 / 100, 0, false, 0⟩ : Hyper ℝ) (stableArgsort (sideOps ℝ).le) 2 1 ∧
    Training (⟨99 / 100, 0, false, 0⟩ : Hyper ℝ) realSort 2 1 ∧
    (∀ i < 2, IsFloat64 ((i : Nat) : ℝ) ∧ |((i : Nat) : ℝ)| ≤ max64 ℝ / 2) ∧
    (∀ i < 2, ∀ j < 2, ((i : Nat) : ℝ) < ((j : Nat) : ℝ) → ∃ f : ℝ, IsFloat64 f ∧ (i : ℝ) < f ∧ f < j) := by
  refine ⟨float64_format, max64_nonneg, max64_float.1, max64_float.2,
    ⟨le_refl _, fun xs => ?_, by decide, by decide⟩, ⟨le_refl _, realSort_sorts, by decide, by decide, by decide⟩,
    fun i hi => ⟨⟨i, 0, ?_, by norm_num, by simp⟩, ?_⟩, fun i hi j hj h => ?_⟩
  · have h := stableArgsort_spec (o := sideOps ℝ) (side_lawful (le_refl (0 : ℝ)))
    exact ⟨h.perm xs fun _ _ => trivial, h.sorted xs fun _ _ => trivial⟩
  · rw [_root_.abs_le]; constructor <;> omega
  · have h2 : (1 : ℝ) ≤ 2 ^ 971 := one_le_pow₀ (by norm_num)
    have h3 : (i : ℝ) ≤ 1 := by exact_mod_cast Nat.le_of_lt_succ hi
    rw [abs_of_nonneg (Nat.cast_nonneg i)]
    unfold max64
    generalize (2 ^ 971 : ℝ) = z at h2
    norm_num
    linarith
  · have h' : i < j := by exact_mod_cast h
    obtain ⟨rfl, rfl⟩ : i = 0 ∧ j = 1 := by omega
    exact ⟨1 / 2, ⟨1, -1, by norm_num, by norm_num, by norm_num⟩, by norm_num, by norm_num⟩

end BT
