import Verif.Model.IntTy
import Verif.Lemmas.Shape
import Verif.Lemmas.Sim
import Verif.Lemmas.Cast
import Verif.Props.Greedy
import Verif.Props.Fit
import Verif.Props.Prune

/-!
# C42: integer dtypes compared with float64

`floatCtx` is the training problem with the integer data converted to float, `intCtx` the one the code
works on when the matrix keeps its integer dtype.
-/

namespace BT
open Spec

set_option linter.unusedSectionVars false

namespace IntTy

theorem two_pow_bits {t : IntTy} (hb : 0 < t.bits) : (2 : Int) ^ t.bits = 2 * 2 ^ (t.bits - 1) := by
  conv_lhs => rw [show t.bits = (t.bits - 1) + 1 by omega]
  rw [pow_succ]; ring

theorem half_pos (t : IntTy) : (0 : Int) < 2 ^ (t.bits - 1) := by positivity

theorem wrap_range {t : IntTy} (hb : 0 < t.bits) (z : Int) : t.lo ≤ t.wrap z ∧ t.wrap z ≤ t.hi := by
  have h1 := two_pow_bits hb
  have h2 := half_pos t
  unfold wrap lo hi
  have a := fun x : Int => Int.emod_nonneg x (show (2 : Int) ^ t.bits ≠ 0 by omega)
  have b := fun x : Int => Int.emod_lt_of_pos x (show (0 : Int) < 2 ^ t.bits by omega)
  split
  · have := a (z + 2 ^ (t.bits - 1)); have := b (z + 2 ^ (t.bits - 1)); omega
  · have := a z; have := b z; omega

/-- Wrapping changes exactly the values that do not fit. -/
theorem wrap_eq_iff {t : IntTy} (hb : 0 < t.bits) (z : Int) : t.wrap z = z ↔ t.lo ≤ z ∧ z ≤ t.hi := by
  constructor
  · intro h; rw [← h]; exact wrap_range hb z
  · intro h
    have h1 := two_pow_bits hb
    unfold wrap lo hi at *
    split <;> rename_i hs <;> simp only [hs, if_true, if_false, Bool.false_eq_true] at h
    · rw [Int.emod_eq_of_lt (by omega) (by omega)]; omega
    · rw [Int.emod_eq_of_lt (by omega) (by omega)]

/-- The wrapped value differs by a multiple of `2^bits`. -/
theorem wrap_congr (t : IntTy) (z : Int) : ∃ k : Int, t.wrap z = z + k * 2 ^ t.bits := by
  unfold wrap
  split
  · refine ⟨-((z + 2 ^ (t.bits - 1)) / 2 ^ t.bits), ?_⟩
    have := Int.emod_add_mul_ediv (z + 2 ^ (t.bits - 1)) (2 ^ t.bits)
    linarith
  · refine ⟨-(z / 2 ^ t.bits), ?_⟩
    have := Int.emod_add_mul_ediv z (2 ^ t.bits)
    linarith

theorem abs_wrap_of_le {t : IntTy} (hb : 0 < t.bits) {z : Int} (h0 : 0 ≤ z) (h1 : z ≤ t.hi) :
    t.abs (t.wrap z) = z := by
  have hl : t.lo ≤ 0 := by
    have := half_pos t
    unfold lo; split <;> omega
  rw [(wrap_eq_iff hb z).2 ⟨by omega, h1⟩]
  unfold abs
  rw [abs_of_nonneg h0, (wrap_eq_iff hb z).2 ⟨by omega, h1⟩]

/-- A signed difference that is too large. -/
theorem abs_wrap_of_gt {t : IntTy} (hs : t.signed = true) (hb : 0 < t.bits) {z : Int}
    (h0 : t.hi < z) (h1 : z < 2 ^ t.bits) :
    t.abs (t.wrap z) = if z = 2 ^ (t.bits - 1) then - 2 ^ (t.bits - 1) else 2 ^ t.bits - z := by
  have e := two_pow_bits hb
  have p := half_pos t
  have hw : t.wrap z = z - 2 ^ t.bits := by
    unfold wrap hi at *
    simp only [hs, if_true] at *
    have : (z + 2 ^ (t.bits - 1)) % 2 ^ t.bits = z + 2 ^ (t.bits - 1) - 2 ^ t.bits := by
      rw [← Int.sub_emod_right, Int.emod_eq_of_lt (by omega) (by omega)]
    omega
  rw [hw]
  unfold abs
  rw [abs_of_neg (by omega)]
  unfold wrap hi at *
  simp only [hs, if_true] at *
  split
  · rename_i hz
    have : (-(z - 2 ^ t.bits) + 2 ^ (t.bits - 1)) % 2 ^ t.bits = 0 := by
      rw [show -(z - 2 ^ t.bits) + 2 ^ (t.bits - 1) = (2 : Int) ^ t.bits by omega]
      exact Int.emod_self
    omega
  · rw [Int.emod_eq_of_lt (by omega) (by omega)]; omega

end IntTy

section
variable {K P S O : Type} [Field K] [LinearOrder K] [IsStrictOrderedRing K]

/-- The training problem with the integers converted to float. -/
def floatCtx (c : Ctx K K P S O) (Z : Nat → Nat → Int) : Ctx K K P S O :=
  { c with o := exactOps K, X := fun i d => (Z i d : K) }

/-- The training problem on the integer matrix itself. -/
def intCtx (t : IntTy) (c : Ctx K K P S O) (Z : Nat → Nat → Int) : Ctx IV K P S O :=
  { o := intOps t K, T := c.T, pair := c.pair, hp := c.hp, X := fun i d => .data (Z i d), y := c.y,
    nDim := c.nDim, names := c.names }

/-- The real number meant by an entry or a threshold. -/
def IV.real (v : IV) : K := (v.twice : K) / 2

@[simp] theorem IV.real_data (z : Int) : (IV.data z).real = (z : K) := by
  simp [IV.real, IV.twice]

@[simp] theorem IV.real_half (z : Int) : (IV.half z).real = (z : K) / 2 := by
  simp [IV.real, IV.twice]

theorem IV.real_le (a b : IV) : (a.real : K) ≤ b.real ↔ a.twice ≤ b.twice := by
  unfold IV.real
  rw [div_le_div_iff_of_pos_right (by norm_num)]
  exact Int.cast_le

theorem IV.real_lt (a b : IV) : (a.real : K) < b.real ↔ a.twice < b.twice := by
  unfold IV.real
  rw [div_lt_div_iff_of_pos_right (by norm_num)]
  exact Int.cast_lt

/-- Two values are recognised as different iff they are as floats. -/
def GapAgrees (t : IntTy) (prec : K) (a b : Int) : Prop :=
  (intOps t K).gap prec (.data a) (.data b) = (exactOps K).gap prec (a : K) (b : K)

/-- C42, candidate splits: in an unsigned dtype neighbouring values of a sorted column are recognised
as different exactly as in float64; in a signed dtype this holds as long as their distance fits. -/
theorem C42_gap_partial (t : IntTy) (hb : 0 < t.bits) (prec : K) (a b : Int)
    (ha : t.lo ≤ a) (hb' : b ≤ t.hi) (hab : a ≤ b) (h : t.signed = false ∨ b - a ≤ t.hi) :
    GapAgrees t prec a b := by
  have hd : b - a ≤ t.hi := by
    rcases h with h | h
    · have : t.lo = 0 := by simp [IntTy.lo, h]
      omega
    · exact h
  have e : |((b : K)) - (a : K)| = ((b - a : Int) : K) := by
    rw [abs_of_nonneg (by rw [sub_nonneg]; exact_mod_cast hab)]; push_cast; rfl
  unfold GapAgrees
  simp only [intOps, exactOps, IV.num, IntTy.abs_wrap_of_le hb (by omega : 0 ≤ b - a) hd, e]

/-- C42, candidate splits in a signed dtype with the default precision 0: exactly the pairs at
distance `2^(bits-1)` are missed. -/
theorem C42_gap_signed (t : IntTy) (hb : 0 < t.bits) (hs : t.signed = true) (a b : Int)
    (ha : t.lo ≤ a) (hb' : b ≤ t.hi) (hab : a ≤ b) :
    (intOps t K).gap 0 (.data a) (.data b) = true ↔ a < b ∧ b - a ≠ 2 ^ (t.bits - 1) := by
  have e := IntTy.two_pow_bits hb
  have p := IntTy.half_pos t
  simp only [intOps, IV.num, decide_eq_true_eq, Int.cast_pos]
  have hhi : t.hi = 2 ^ (t.bits - 1) - 1 := by simp [IntTy.hi, hs]
  have hlo : t.lo = -2 ^ (t.bits - 1) := by simp [IntTy.lo, hs]
  by_cases hd : b - a ≤ t.hi
  · rw [IntTy.abs_wrap_of_le hb (by omega) hd]
    omega
  · rw [IntTy.abs_wrap_of_gt hs hb (by omega) (by omega)]
    split <;> omega

/-- C42, thresholds: the threshold is the midpoint iff the sum of the two values fits; otherwise it is
off by a non-zero multiple of `2^(bits-1)`. -/
theorem C42_midpoint (t : IntTy) (hb : 0 < t.bits) (a b : Int) :
    ((((intOps t K).mid (.data a) (.data b)).real : K) = (exactOps K).mid (a : K) (b : K) ↔
      t.lo ≤ a + b ∧ a + b ≤ t.hi) ∧
    ∃ k : Int, (((intOps t K).mid (.data a) (.data b)).real : K) =
      (exactOps K).mid (a : K) (b : K) + (k : K) * 2 ^ (t.bits - 1) := by
  constructor
  · rw [← IntTy.wrap_eq_iff hb]
    simp only [intOps, exactOps, IV.num, IV.real_half]
    rw [show (1 / 2 : K) * ((a : K) + (b : K)) = ((a + b : Int) : K) / 2 by push_cast; ring]
    rw [div_left_inj' (by norm_num : (2 : K) ≠ 0)]
    exact Int.cast_inj
  · obtain ⟨k, hk⟩ := t.wrap_congr (a + b)
    refine ⟨k, ?_⟩
    simp only [intOps, exactOps, IV.num, IV.real_half, hk]
    rw [IntTy.two_pow_bits hb]
    push_cast
    ring

/-- Thresholds of the integer fit and of the float fit: the same sum, wrapped or not. -/
def WrappedMid (t : IntTy) (v : IV) (v' : K) : Prop :=
  ∃ s : Int, v' = (s : K) / 2 ∧ v = .half (t.wrap s)

/-- Integer operations with an exact midpoint. -/
def midOps (t : IntTy) (K : Type) [Field K] [LinearOrder K] : XOps IV K :=
  { intOps t K with mid := fun a b => .half (a.num + b.num) }

/-- A matrix entry from the set `D`. -/
def IV.IsData (D : Int → Prop) (v : IV) : Prop := ∃ z, v = .data z ∧ D z

theorem midOps_lawful {t : IntTy} {prec : K} (hp : 0 ≤ prec) {D : Int → Prop}
    (hD : ∀ a b, D a → D b → a ≤ b → GapAgrees t prec a b) :
    LawfulOps (midOps t K) (IV.IsData D) prec where
  le_trans a b c _ _ _ h1 h2 := by
    simp only [midOps, intOps, decide_eq_true_eq] at *; omega
  le_total a b _ _ := by
    simp only [midOps, intOps, decide_eq_true_eq]; omega
  le_antisymm := by
    rintro _ _ ⟨a, rfl, -⟩ ⟨b, rfl, -⟩ h1 h2
    have h1 := of_decide_eq_true h1
    have h2 := of_decide_eq_true h2
    simp only [IV.twice] at h1 h2
    congr 1; omega
  below := by
    rintro _ _ _ ⟨a, rfl, ha⟩ ⟨b, rfl, hb⟩ ⟨x, rfl, -⟩ hab hg hx
    have hab := of_decide_eq_true hab
    have hx := of_decide_eq_true hx
    simp only [IV.twice] at hab hx
    have := hD a b ha hb (by omega)
    have hg' : (exactOps K).gap prec (a : K) (b : K) = true := by rw [← this]; exact hg
    simp only [exactOps, decide_eq_true_eq] at hg'
    have := exact_gap_lt hp (by exact_mod_cast (by omega : a ≤ b)) hg'
    have : a < b := by exact_mod_cast this
    exact ⟨decide_eq_true (by simp only [midOps, IV.twice, IV.num]; omega),
      decide_eq_false (by simp only [midOps, IV.twice, IV.num]; omega)⟩
  above := by
    rintro _ _ _ ⟨a, rfl, ha⟩ ⟨b, rfl, hb⟩ ⟨x, rfl, -⟩ hab hg hx
    have hab := of_decide_eq_true hab
    have hx := of_decide_eq_true hx
    simp only [IV.twice] at hab hx
    have := hD a b ha hb (by omega)
    have hg' : (exactOps K).gap prec (a : K) (b : K) = true := by rw [← this]; exact hg
    simp only [exactOps, decide_eq_true_eq] at hg'
    have := exact_gap_lt hp (by exact_mod_cast (by omega : a ≤ b)) hg'
    have : a < b := by exact_mod_cast this
    exact ⟨decide_eq_false (by simp only [midOps, IV.twice, IV.num]; omega),
      decide_eq_true (by simp only [midOps, IV.twice, IV.num]; omega)⟩

/-- Without wrap-around in sums the integer operations themselves are lawful. -/
theorem intOps_lawful {t : IntTy} {prec : K} (hp : 0 ≤ prec) {D : Int → Prop}
    (hD : ∀ a b, D a → D b → a ≤ b → GapAgrees t prec a b)
    (hS : ∀ a b, D a → D b → t.wrap (a + b) = a + b) :
    LawfulOps (intOps t K) (IV.IsData D) prec := by
  have h := midOps_lawful (t := t) hp hD
  have e : ∀ a b, IV.IsData D a → IV.IsData D b → (intOps t K).mid a b = (midOps t K).mid a b := by
    rintro _ _ ⟨a, rfl, ha⟩ ⟨b, rfl, hb⟩
    simp only [midOps, intOps, IV.num, hS a b ha hb]
  exact
  { le_trans := h.le_trans
    le_total := h.le_total
    le_antisymm := h.le_antisymm
    below := fun a b x ha hb hx h1 h2 h3 => by
      rw [e a b ha hb]; exact h.below a b x ha hb hx h1 h2 h3
    above := fun a b x ha hb hx h1 h2 h3 => by
      rw [e a b ha hb]; exact h.above a b x ha hb hx h1 h2 h3 }

variable [LinearOrder S]

/-- The fit on integers with exact midpoints is simulated by the fit on floats. -/
theorem int_sim {t : IntTy} {c : Ctx K K P S O} {Z : Nat → Nat → Int} {n : Nat} {D : Int → Prop}
    {o : XOps IV K} (hle : o.le = (intOps t K).le) (hlt : o.lt = (intOps t K).lt)
    (hge : o.ge = (intOps t K).ge) (hgap : o.gap = (intOps t K).gap)
    (hmid : ∀ a b, D a → D b → o.mid (.data a) (.data b) = .half (a + b))
    (hD : ∀ a b, D a → D b → a ≤ b → GapAgrees t c.hp.splitPrecision a b) :
    Sim (IV.IsData D) { intCtx t c Z with o := o } (floatCtx c Z) n (fun _ => IV.real) id id id
      (fun _ => True) (fun _ => True) (fun _ => True) where
  nDim := rfl
  names := rfl
  X i d _ _ := by simp [floatCtx, intCtx]
  y _ _ := rfl
  le _ a b _ _ := by
    simp only [floatCtx, hle, exactOps, intOps, IV.real_le]
  gap := by
    rintro _ _ _ ⟨a, rfl, ha⟩ ⟨b, rfl, hb⟩ hab
    have hab : 2 * a ≤ 2 * b := by
      rw [hle] at hab
      exact of_decide_eq_true hab
    simp only [hgap, IV.real_data]
    exact (hD a b ha hb (by omega)).symm
  mid := by
    rintro _ _ _ ⟨a, rfl, ha⟩ ⟨b, rfl, hb⟩
    simp only [hmid a b ha hb, floatCtx, exactOps, IV.real_data, IV.real_half]
    push_cast
    ring
  lt _ a v _ := by simp only [floatCtx, hlt, exactOps, intOps, IV.real_lt]
  ge _ a v _ := by simp only [floatCtx, hge, exactOps, intOps, IV.real_le]
  okTarget _ _ := trivial
  inj _ _ _ _ h := h
  delta := Iff.rfl
  posterior1 ys p _ _ _ := by simp [floatCtx, intCtx]
  posteriorD _ ys p _ _ _ := by simp [floatCtx, intCtx]
  noSplit lv ys p _ _ _ := by simp [floatCtx, intCtx]
  pair lv p ns a b _ _ _ _ _ _ := by simp [floatCtx, intCtx]
  mono _ _ _ _ := Iff.rfl

theorem mapTree_sameShape {R : IV → K → Prop} {f : Nat → IV → K} (hp : Hyper K)
    {t0 t : PNode IV S K P} {R0 : IV → IV → Prop} (h : SameShape (SplitRel R0) t0 t)
    (hR : ∀ d v v', R0 v v' → R v (f d v')) (hhp : ∀ addr u, nodeAt t addr = some u → u.info.hp = hp) :
    SameShape (SplitRel R) t0 (mapTree hp f id id t) := by
  have hi : ∀ i : Info K P, i.hp = hp → mapInfo hp id i = i := by
    intro i h
    cases i
    simp only at h
    subst h
    simp [mapInfo]
  induction h with
  | leaf i =>
    simp only [mapTree, hi i (hhp [] _ rfl)]
    exact .leaf i
  | split i sp sp' l b c1 c2 c1' c2' hs _ _ ih1 ih2 =>
    simp only [mapTree, hi i (hhp [] _ rfl)]
    exact .split _ _ _ _ _ _ _ _ _ ⟨hs.1, hs.2.1, hR _ _ _ hs.2.2⟩
      (ih1 fun addr u hu => hhp (false :: addr) u hu) (ih2 fun addr u hu => hhp (true :: addr) u hu)

/-- C42: as long as neighbouring values are told apart as in float64 (always in unsigned dtypes, see
`C42_gap_partial` and `C42_gap_signed`), the fit on the integer matrix finds the tree of the float
fit: the same splits, rows, posteriors and likelihoods; only thresholds whose sum does not fit are
wrapped (`C42_midpoint`).  The sorting routines of the two dtypes may order ties differently. -/
theorem C42_structure_partial (t : IntTy) (c : Ctx K K P S O) (Z : Nat → Nat → Int) (n : Nat) (hn : 0 < n)
    (D : Int → Prop) (hZ : ∀ i < n, ∀ d < c.nDim, D (Z i d))
    (hD : ∀ a b, D a → D b → a ≤ b → GapAgrees t c.hp.splitPrecision a b)
    {argsort : List IV → List Nat} (hs : IsArgsort (intOps t K).le (IV.IsData D) argsort)
    {argsort' : List K → List Nat} (hv : Valid (fun _ => True) (floatCtx c Z) argsort' n)
    (hprec : 0 ≤ c.hp.splitPrecision) (hnames : c.nDim ≤ c.names.length) (prior : Option P) :
    ∃ u u', fitIn (intCtx t c Z) argsort prior n = .ok u ∧
      fitIn (floatCtx c Z) argsort' prior n = .ok u' ∧
      SameShape (SplitRel (WrappedMid t)) u u' := by
  have hv0 : Valid (IV.IsData D) { intCtx t c Z with o := midOps t K } argsort n :=
    { ops := midOps_lawful hprec hD
      target := hv.target
      sort := hs
      dims := hv.dims
      rows := hv.rows
      vals := fun i hi d hd => ⟨Z i d, rfl, hZ i hi d hd⟩ }
  obtain ⟨u0, h0⟩ := C12_fit_terminates hv0 prior hnames
  have hsim : Sim (IV.IsData D) { intCtx t c Z with o := midOps t K } (floatCtx c Z) n
      (fun _ => IV.real) id id id (fun _ => True) (fun _ => True) (fun _ => True) :=
    int_sim rfl rfl rfl rfl (fun _ _ _ _ => rfl) hD
  have h1 := fit_sim hsim hv0 hv hn (prior := prior) (by simp [floatCtx, intCtx]) trivial rfl
    (fun _ _ _ => Iff.rfl) h0
  have h2 := fitIn_mid (c := intCtx t c Z) (o' := midOps t K)
    (R := fun v v' => ∃ s : Int, v = .half (t.wrap s) ∧ v' = .half s) rfl
    (fun a b => ⟨a.num + b.num, rfl, rfl⟩) argsort prior n
  rw [h0] at h2
  cases hu : fitIn (intCtx t c Z) argsort prior n with
  | error e => rw [hu] at h2; exact h2.elim
  | ok u =>
    rw [hu] at h2
    refine ⟨u, _, rfl, by simpa using h1, ?_⟩
    refine mapTree_sameShape _ h2 ?_ fun addr w hw => (C19_hyper hv0 hn h0 addr w hw).1
    rintro _ _ _ ⟨s, rfl, rfl⟩
    exact ⟨s, by simp, rfl⟩

/-- C42: if moreover no sum of two entries wraps around (int8: entries between -64 and 63, uint8: up to
127), the fit on the integer matrix is the fit on the float matrix, thresholds included, and the two
models route every row alike. -/
theorem C42_same_partial (t : IntTy) (c : Ctx K K P S O) (Z : Nat → Nat → Int) (n : Nat) (hn : 0 < n)
    (D : Int → Prop) (hZ : ∀ i < n, ∀ d < c.nDim, D (Z i d))
    (hD : ∀ a b, D a → D b → a ≤ b → GapAgrees t c.hp.splitPrecision a b)
    (hS : ∀ a b, D a → D b → t.wrap (a + b) = a + b)
    {argsort : List IV → List Nat} (hs : IsArgsort (intOps t K).le (IV.IsData D) argsort)
    {argsort' : List K → List Nat} (hv : Valid (fun _ => True) (floatCtx c Z) argsort' n)
    (hprec : 0 ≤ c.hp.splitPrecision) (hnames : c.nDim ≤ c.names.length) (prior : Option P) :
    ∃ u, fitIn (intCtx t c Z) argsort prior n = .ok u ∧
      fitIn (floatCtx c Z) argsort' prior n = .ok (mapTree c.hp (fun _ => IV.real) id id u) ∧
      ∀ x : Nat → Int, (walk (perpRouter (exactOps K)) (mapTree c.hp (fun _ => IV.real) id id u)
          (fun d => (x d : K))).map Info.posterior =
        (walk (perpRouter (intOps t K)) u fun d => .data (x d)).map Info.posterior := by
  have hv0 : Valid (IV.IsData D) (intCtx t c Z) argsort n :=
    { ops := intOps_lawful hprec hD hS
      target := hv.target
      sort := hs
      dims := hv.dims
      rows := hv.rows
      vals := fun i hi d hd => ⟨Z i d, rfl, hZ i hi d hd⟩ }
  obtain ⟨u0, h0⟩ := C12_fit_terminates hv0 prior hnames
  have hsim : Sim (IV.IsData D) (intCtx t c Z) (floatCtx c Z) n
      (fun _ => IV.real) id id id (fun _ => True) (fun _ => True) (fun _ => True) :=
    int_sim (o := intOps t K) rfl rfl rfl rfl
      (fun a b ha hb => by simp only [intOps, IV.num, hS a b ha hb]) hD
  have h1 := fit_sim hsim hv0 hv hn (prior := prior) (by simp [floatCtx, intCtx]) trivial rfl
    (fun _ _ _ => Iff.rfl) h0
  rw [Option.map_id] at h1
  refine ⟨u0, h0, h1, fun x => ?_⟩
  have := walk_map (o := intOps t K) (o' := exactOps K) c.hp (fun _ => IV.real) (id : P → P) (id : S → S)
    (fun _ a v => by simp only [exactOps, intOps, IV.real_lt])
    (fun _ a v => by simp only [exactOps, intOps, IV.real_le]) (fun d => .data (x d)) u0
  simp only [IV.real_data] at this
  rw [this, Option.map_map]
  rfl

/-- In a signed dtype a column whose values are all at distance 0 or `2^(bits-1)` is never split,
whatever the targets. -/
theorem int_no_split (t : IntTy) (c : Ctx K K P S O) (Z : Nat → Nat → Int) (n : Nat)
    (D : Int → Prop) (hZ : ∀ i < n, ∀ d < c.nDim, D (Z i d))
    (hD : ∀ a b, D a → D b → a ≤ b → (intOps t K).gap c.hp.splitPrecision (.data a) (.data b) = false)
    {argsort : List IV → List Nat} (hs : IsArgsort (intOps t K).le (IV.IsData D) argsort)
    (hT : LawfulTarget c.T c.pair) (hdim : 0 < c.nDim) (hn : n ≤ 2 ^ 64)
    (hnames : c.nDim ≤ c.names.length) (prior : Option P) :
    ∃ i, fitIn (intCtx t c Z) argsort prior n = .ok (.leaf i) := by
  have hno : ∀ a b, IV.IsData D a → IV.IsData D b → (intOps t K).le a b = true →
      (intOps t K).gap c.hp.splitPrecision a b = true → False := by
    rintro _ _ ⟨a, rfl, ha⟩ ⟨b, rfl, hb⟩ hab hg
    have : 2 * a ≤ 2 * b := of_decide_eq_true hab
    rw [hD a b ha hb (by omega)] at hg
    exact absurd hg (by simp)
  have hv : Valid (IV.IsData D) (intCtx t c Z) argsort n :=
    { ops :=
      { le_trans := fun a b c _ _ _ h1 h2 => by
          have h1 := of_decide_eq_true h1
          have h2 := of_decide_eq_true h2
          exact decide_eq_true (by omega)
        le_total := fun a b _ _ => by
          simp only [intCtx, intOps, decide_eq_true_eq]; omega
        le_antisymm := by
          rintro _ _ ⟨a, rfl, -⟩ ⟨b, rfl, -⟩ h1 h2
          have h1 : 2 * a ≤ 2 * b := of_decide_eq_true h1
          have h2 : 2 * b ≤ 2 * a := of_decide_eq_true h2
          congr 1; omega
        below := fun a b x ha hb _ h1 h2 _ => (hno a b ha hb h1 h2).elim
        above := fun a b x ha hb _ h1 h2 _ => (hno a b ha hb h1 h2).elim }
      target := hT
      sort := hs
      dims := hdim
      rows := hn
      vals := fun i hi d hd => ⟨Z i d, rfl, hZ i hi d hd⟩ }
  obtain ⟨u, hu⟩ := C12_fit_terminates hv prior hnames
  obtain ⟨t0, hb, -, h0, h1⟩ := fit_cutOff hv hu
  have : ∃ i, t0 = .leaf i := by
    cases hb with
    | stay => exact ⟨_, rfl⟩
    | split _ _ _ _ d cut name _ _ _ hd hcut =>
      have := cut_values hv.ops (fun i hi => hv.vals i (List.mem_range.1 hi) d hd) hcut
      exact (hno _ _ this.2.2.1 this.2.2.2.1 this.2.2.2.2.1 this.2.2.2.2.2.2.1).elim
  obtain ⟨i, rfl⟩ := this
  refine ⟨i, ?_⟩
  rw [hu]
  cases hp : (intCtx t c Z).hp.prune with
  | false => rw [h0 hp]
  | true => rw [h1 hp]; rfl

end

/-- Two rows with one integer feature. -/
def pairZ (a b : Int) (i _d : Nat) : Int := if i = 0 then a else b

/-- The rows have classes 0 and 1; exact rational probabilities. -/
def pairCtx (a b : Int) : Ctx ℚ ℚ (List ℚ) ℚ (List ℚ) where
  o := exactOps ℚ
  T := probTarget ℚ
  pair := probPair
  hp := ⟨99 / 100, 0, false, 0⟩
  X := fun i d => (pairZ a b i d : ℚ)
  y := fun i => if i = 0 then 0 else 1
  nDim := 1
  names := ["x0"]

/-- The tree expected for it. -/
def pairTree (v : ℚ) : PNode ℚ ℚ ℚ (List ℚ) :=
  .split ⟨⟨99 / 100, 0, false, 0⟩, some [1, 1], 0, some 1, 2, [2, 2]⟩ ⟨0, "x0", v⟩ (1 / 600) (99 / 400)
    (.leaf ⟨⟨99 / 100, 0, false, 0⟩, some [1, 1], 1, none, 1, [2, 1]⟩)
    (.leaf ⟨⟨99 / 100, 0, false, 0⟩, some [1, 1], 1, none, 1, [1, 2]⟩)

theorem pair_floatCtx (a b : Int) :
    floatCtx (castCtx (pairCtx a b)) (pairZ a b) = castCtx (pairCtx a b) := by
  unfold floatCtx castCtx pairCtx
  simp only [Rat.cast_intCast]

theorem pair_fit {a b : Int} {v : ℚ}
    (h : fitIn (pairCtx a b) (insArgsort (exactOps ℚ).le) (some [1, 1]) 2 = .ok (pairTree v))
    {argsort : List ℝ → List Nat} (hs : IsArgsort (exactOps ℝ).le (fun _ => True) argsort) :
    fitIn (floatCtx (castCtx (pairCtx a b)) (pairZ a b)) argsort (some (castL [1, 1])) 2 =
      .ok (castTree ⟨99 / 100, 0, false, 0⟩ (pairTree v)) := by
  rw [pair_floatCtx]
  exact cast_fit h rfl rfl rfl Nat.zero_lt_one (by decide) (by decide) (le_refl _)
    (by show (0 : ℚ) < 99 / 100; norm_num) (by show (99 / 100 : ℚ) < 1; norm_num) (le_refl _)
    ⟨by simp, by decide +kernel⟩ hs

theorem pair_valid (a b : Int) {argsort : List ℝ → List Nat}
    (hs : IsArgsort (exactOps ℝ).le (fun _ => True) argsort) :
    Valid (fun _ => True) (floatCtx (castCtx (pairCtx a b)) (pairZ a b)) argsort 2 := by
  rw [pair_floatCtx]
  exact castCtx_valid Nat.zero_lt_one (by decide) (le_refl _) hs

/-- C42 is false for int8: two classification rows with the values -64 and 64.  The difference wraps to
-128, whose absolute value is -128 again, so no candidate split is seen and the model stays a leaf,
while in float64 the rows are separated. -/
theorem C42_refuted {argsort : List IV → List Nat}
    (hs : IsArgsort (intOps .int8 ℝ).le (IV.IsData fun z => z = -64 ∨ z = 64) argsort)
    {argsort' : List ℝ → List Nat} (hs' : IsArgsort (exactOps ℝ).le (fun _ => True) argsort') :
    ∃ (c : Ctx ℝ ℝ (List ℝ) ℝ (List ℝ)) (Z : Nat → Nat → Int) (prior : List ℝ)
      (u : PNode IV ℝ ℝ (List ℝ)) (u' : PNode ℝ ℝ ℝ (List ℝ)),
      c.T = clsTarget realFns ∧ Valid (fun _ => True) (floatCtx c Z) argsort' 2 ∧ GoodPrior prior ∧
      (∀ i d, IntTy.int8.lo ≤ Z i d ∧ Z i d ≤ IntTy.int8.hi) ∧
      fitIn (intCtx .int8 c Z) argsort (some prior) 2 = .ok u ∧
      fitIn (floatCtx c Z) argsort' (some prior) 2 = .ok u' ∧
      u.isLeaf = true ∧ u'.isLeaf = false := by
  have h := pair_fit (a := -64) (b := 64) (v := 0) (by decide +kernel) hs'
  obtain ⟨i, hi⟩ := int_no_split .int8 (castCtx (pairCtx (-64) 64)) (pairZ (-64) 64) 2
    (fun z => z = -64 ∨ z = 64) (by intro i _ d _; unfold pairZ; split <;> simp)
    (by
      intro a b ha hb hab
      refine decide_eq_false ?_
      show ¬ (((0 : ℚ) : ℝ) < _)
      rw [Rat.cast_zero, Int.cast_pos]
      rcases ha with rfl | rfl <;> rcases hb with rfl | rfl <;> simp [IntTy.abs, IntTy.wrap, IntTy.int8, IV.num])
    hs (cls_lawful realFns) Nat.zero_lt_one (by decide) (by decide) (some (castL [1, 1]))
  refine ⟨castCtx (pairCtx (-64) 64), pairZ (-64) 64, castL [1, 1], _, _, rfl, pair_valid _ _ hs',
    ⟨by simp [castL], by intro a ha; simp [castL] at ha; rw [ha]; norm_num⟩, ?_, hi, h, rfl, rfl⟩
  intro i d
  unfold pairZ
  split <;> decide

/-- C42 is false for uint8, too: for the values 100 and 200 the sum 300 wraps to 44, the threshold is 22
instead of 150, and the fitted model predicts class 1 for both training rows. -/
theorem C42_refuted_uint8 {argsort : List IV → List Nat}
    (hs : IsArgsort (intOps .uint8 ℝ).le (IV.IsData fun z => 0 ≤ z ∧ z ≤ 255) argsort)
    {argsort' : List ℝ → List Nat} (hs' : IsArgsort (exactOps ℝ).le (fun _ => True) argsort') :
    ∃ (c : Ctx ℝ ℝ (List ℝ) ℝ (List ℝ)) (Z : Nat → Nat → Int) (prior : List ℝ)
      (u : PNode IV ℝ ℝ (List ℝ)) (u' : PNode ℝ ℝ ℝ (List ℝ)),
      c.T = clsTarget realFns ∧ Valid (fun _ => True) (floatCtx c Z) argsort' 2 ∧ GoodPrior prior ∧
      (∀ i d, IntTy.uint8.lo ≤ Z i d ∧ Z i d ≤ IntTy.uint8.hi) ∧
      fitIn (intCtx .uint8 c Z) argsort (some prior) 2 = .ok u ∧
      fitIn (floatCtx c Z) argsort' (some prior) 2 = .ok u' ∧
      predict (perpRouter (intOps .uint8 ℝ)) c.T u (fun i d => .data (Z i d)) 2 = [1, 1] ∧
      predict (perpRouter (exactOps ℝ)) c.T u' (fun i d => (Z i d : ℝ)) 2 = [0, 1] := by
  have h := pair_fit (a := 100) (b := 200) (v := 150) (by decide +kernel) hs'
  have hgap : ∀ a b : Int, (0 ≤ a ∧ a ≤ 255) → (0 ≤ b ∧ b ≤ 255) → a ≤ b →
      GapAgrees .uint8 (castCtx (pairCtx 100 200)).hp.splitPrecision a b :=
    fun a b ha hb hab => C42_gap_partial .uint8 (by decide) _ a b ha.1 hb.2 hab (.inl rfl)
  obtain ⟨u, u', h1, h2, h3⟩ := C42_structure_partial .uint8 (castCtx (pairCtx 100 200)) (pairZ 100 200) 2
    (by decide) (fun z => 0 ≤ z ∧ z ≤ 255) (by intro i _ d _; unfold pairZ; split <;> simp)
    hgap hs (pair_valid 100 200 hs') (by simp [castCtx, castHp, pairCtx]) (by decide) (some (castL [1, 1]))
  rw [h] at h2
  cases h2
  have hp : predict (perpRouter (exactOps ℝ)) (clsTarget realFns)
      (castTree ⟨99 / 100, 0, false, 0⟩ (pairTree 150)) (fun i d => ((pairZ 100 200 i d : ℚ) : ℝ)) 2 = [0, 1] := by
    rw [predict_cast, show predict (perpRouter (exactOps ℚ)) (probTarget ℚ) (pairTree 150)
      (fun i d => (pairZ 100 200 i d : ℚ)) 2 = [0, 1] by decide +kernel]
    simp [castL]
  simp only [Rat.cast_intCast] at hp
  refine ⟨castCtx (pairCtx 100 200), pairZ 100 200, castL [1, 1], u, _, rfl, pair_valid _ _ hs',
    ⟨by simp [castL], by intro a ha; simp [castL] at ha; rw [ha]; norm_num⟩, ?_, h1, h, ?_, hp⟩
  · intro i d
    unfold pairZ
    split <;> decide
  · unfold castTree pairTree mapTree at h3
    cases h3 with
    | split _ sp _ _ _ c1 c2 _ _ hR hc1 hc2 =>
      unfold mapTree at hc1 hc2
      cases hc1
      cases hc2
      obtain ⟨hdim, -, s, hs1, hs2⟩ := hR
      have hs1 : (s : ℝ) = 300 := by
        simp only at hs1
        push_cast at hs1
        linarith
      have hs1 : s = 300 := by exact_mod_cast hs1
      subst hs1
      have hv : sp.value = .half 44 := by rw [hs2]; rfl
      have hval : ∀ i < 2, ¬ (IV.data (pairZ 100 200 i sp.dim)).twice < (IV.half 44).twice := by
        intro i _
        unfold pairZ
        split <;> decide
      refine (predictRows_right _ ?_ _ _ _ _ _ _ _ _ _ _ ?_ ?_).trans ?_
      · intro sp x ⟨g1, g2⟩
        have g1 := of_decide_eq_true g1
        have g2 := of_decide_eq_true g2
        omega
      · intro i hi
        refine decide_eq_false ?_
        rw [hv]; exact hval i hi
      · intro i hi
        refine decide_eq_true ?_
        rw [hv]; exact not_lt.1 (hval i hi)
      · show List.replicate 2 ((clsTarget realFns).predictLeaf (castL [1, 2])) = _
        rw [predictLeaf_12]
        rfl

/-- The hypotheses of the partial theorems are met by int8 data in [-64, 63], with a split found. -/
example : ∃ u, fitIn (intCtx .int8 (castCtx (pairCtx (-3) 5)) (pairZ (-3) 5))
      (insArgsort (intOps .int8 ℝ).le) (some (castL [1, 1])) 2 = .ok u ∧
    castTree ⟨99 / 100, 0, false, 0⟩ (pairTree 1) =
      mapTree (castHp ⟨99 / 100, 0, false, 0⟩) (fun _ => IV.real) id id u := by
  have hgap : ∀ a b : Int, (-64 ≤ a ∧ a ≤ 63) → (-64 ≤ b ∧ b ≤ 63) → a ≤ b →
      GapAgrees .int8 (castCtx (pairCtx (-3) 5)).hp.splitPrecision a b := fun a b ha hb hab =>
    C42_gap_partial .int8 (by decide) _ a b (le_trans (by decide) ha.1) (le_trans hb.2 (by decide)) hab
      (.inr (by have : IntTy.int8.hi = 127 := by decide
                omega))
  have hsum : ∀ a b : Int, (-64 ≤ a ∧ a ≤ 63) → (-64 ≤ b ∧ b ≤ 63) → IntTy.int8.wrap (a + b) = a + b :=
    fun a b ha hb => (IntTy.wrap_eq_iff (by decide) _).2
      (by have : IntTy.int8.hi = 127 := by decide
          have : IntTy.int8.lo = -128 := by decide
          omega)
  have hprec : (0 : ℝ) ≤ (castCtx (pairCtx (-3) 5)).hp.splitPrecision := by simp [castCtx, castHp, pairCtx]
  obtain ⟨u, h1, h2, -⟩ := C42_same_partial .int8 (castCtx (pairCtx (-3) 5)) (pairZ (-3) 5) 2 (by decide)
    (fun z => -64 ≤ z ∧ z ≤ 63) (by intro i _ d _; unfold pairZ; split <;> simp) hgap hsum
    (insArgsort_spec (intOps_lawful hprec hgap hsum)) (pair_valid (-3) 5 realSort_spec) hprec (by decide)
    (some (castL [1, 1]))
  rw [pair_fit (a := -3) (b := 5) (v := 1) (by decide +kernel) realSort_spec] at h2
  exact ⟨u, h1, Except.ok.inj h2⟩

/-- A pair recognised although the difference wraps: -100 and 100 in int8. -/
example : (intOps .int8 ℚ).gap 0 (.data (-100)) (.data 100) = true ∧
    (intOps .int8 ℚ).mid (.data (-100)) (.data 100) = .half 0 := by decide +kernel

end BT
