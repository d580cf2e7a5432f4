import Verif.Spec.ClsFloat
import Verif.Model.Real
import Verif.Lemmas.RegFloat
import Verif.Lemmas.Target
import Mathlib.Analysis.SpecialFunctions.Gamma.BohrMollerup
import Mathlib.Analysis.SpecialFunctions.Log.Deriv

/-!
# Errors of logarithms and log-gamma values
-/

namespace BT
open Spec

/-- `log Γ` is convex, in the form used below. -/
theorem lgam_convex {x y a b : ℝ} (hx : 0 < x) (hy : 0 < y) (ha : 0 ≤ a) (hb : 0 ≤ b) (hab : a + b = 1) :
    lgam (a * x + b * y) ≤ a * lgam x + b * lgam y := by
  have := Real.convexOn_log_Gamma.2 (show x ∈ Set.Ioi 0 from hx) (show y ∈ Set.Ioi 0 from hy) ha hb hab
  simpa [lgam, Function.comp] using this

/-- Convexity without quotients. -/
theorem lgam_between {x y z : ℝ} (hx : 0 < x) (hxy : x ≤ y) (hyz : y ≤ z) :
    (z - x) * lgam y ≤ (z - y) * lgam x + (y - x) * lgam z := by
  rcases eq_or_lt_of_le (hxy.trans hyz) with h | h
  · have h1 : y = x := by linarith
    have h2 : z = x := by linarith
    subst h1; subst h2; simp
  have hd : 0 < z - x := by linarith
  have e := lgam_convex hx (hx.trans h) (a := (z - y) / (z - x)) (b := (y - x) / (z - x))
    (div_nonneg (by linarith) hd.le) (div_nonneg (by linarith) hd.le) (by field_simp; ring)
  have e2 : (z - y) / (z - x) * x + (y - x) / (z - x) * z = y := by field_simp; ring
  rw [e2] at e
  have := mul_le_mul_of_nonneg_left e hd.le
  calc (z - x) * lgam y ≤ _ := this
    _ = _ := by field_simp

theorem lgam_one : lgam 1 = 0 := by simp [lgam]
theorem lgam_two : lgam 2 = 0 := by simp [lgam]
theorem lgam_three : lgam 3 = Real.log 2 := by
  have : Real.Gamma 3 = 2 := by
    have h := Real.Gamma_nat_eq_factorial 2
    rw [show ((2 : Nat) : ℝ) + 1 = 3 by norm_num] at h
    rw [h]
    norm_num [Nat.factorial]
  rw [lgam, this]

theorem lgam_ge {x : ℝ} (hx : 0 < x) : -Real.log 2 ≤ lgam x := by
  have hl : 0 < Real.log 2 := Real.log_pos (by norm_num)
  rcases le_total x 1 with h | h
  · have := lgam_between hx h (show (1 : ℝ) ≤ 2 by norm_num)
    rw [lgam_one, lgam_two] at this
    linarith
  · rcases le_total x 2 with h2 | h2
    · have := lgam_between hx h2 (show (2 : ℝ) ≤ 3 by norm_num)
      rw [lgam_two, lgam_three] at this
      nlinarith
    · have := lgam_between one_pos (show (1 : ℝ) ≤ 2 by norm_num) h2
      rw [lgam_one, lgam_two] at this
      linarith

/-- Between two arguments `log Γ` is not larger than at them, and it is never below `-log 2`. -/
theorem lgam_abs_le {lo hi x : ℝ} (hlo : 0 < lo) (h1 : lo ≤ x) (h2 : x ≤ hi) :
    |lgam x| ≤ Real.log 2 + |lgam lo| + |lgam hi| := by
  have hl : 0 < Real.log 2 := Real.log_pos (by norm_num)
  have a1 := abs_nonneg (lgam lo)
  have a2 := abs_nonneg (lgam hi)
  rw [_root_.abs_le]
  constructor
  · linarith [lgam_ge (hlo.trans_le h1)]
  · have hb := lgam_between hlo h1 h2
    rcases eq_or_lt_of_le (h1.trans h2) with h | h
    · have : x = lo := by linarith
      rw [this]
      linarith [le_abs_self (lgam lo)]
    · have g1 : (hi - x) * lgam lo ≤ (hi - x) * |lgam lo| := mul_le_mul_of_nonneg_left (le_abs_self _) (by linarith)
      have g2 : (x - lo) * lgam hi ≤ (x - lo) * |lgam hi| := mul_le_mul_of_nonneg_left (le_abs_self _) (by linarith)
      have g3 : (hi - x) * |lgam lo| ≤ (hi - lo) * |lgam lo| := mul_le_mul_of_nonneg_right (by linarith) a1
      have g4 : (x - lo) * |lgam hi| ≤ (hi - lo) * |lgam hi| := mul_le_mul_of_nonneg_right (by linarith) a2
      have : (hi - lo) * lgam x ≤ (hi - lo) * (|lgam lo| + |lgam hi|) := by rw [mul_add]; linarith
      have := le_of_mul_le_mul_left this (by linarith)
      linarith

/-- `log Γ` of an inaccurate argument. -/
theorem lgam_near {x z δ G : ℝ} (hx : 0 < x) (hδ : δ ≤ 1 / 2) (h : |z - x| ≤ δ * x)
    (hG : ∀ w, x / 2 ≤ w → w ≤ 2 * x → |lgam w| ≤ G) : |lgam z - lgam x| ≤ 4 * δ * G := by
  have hG0 : 0 ≤ G := (abs_nonneg _).trans (hG x (by linarith) (by linarith))
  have hδ0 : 0 ≤ δ := by
    by_contra hn
    have := (abs_nonneg _).trans h
    nlinarith
  have hb := _root_.abs_le.1 h
  have hδx : δ * x ≤ 1 / 2 * x := mul_le_mul_of_nonneg_right hδ hx.le
  have b1 := _root_.abs_le.1 (hG (x / 2) (by linarith) (by linarith))
  have b2 := _root_.abs_le.1 (hG (2 * x) (by linarith) (by linarith))
  have b0 := _root_.abs_le.1 (hG x (by linarith) (by linarith))
  -- a slope bound in both directions
  have key : ∀ e : ℝ, x * e ≤ 4 * (δ * x) * G → e ≤ 4 * δ * G := fun e he =>
    le_of_mul_le_mul_left (by calc x * e ≤ _ := he
                              _ = x * (4 * δ * G) := by ring) hx
  rw [_root_.abs_le]
  rcases le_total x z with hz | hz
  · have hs : z - x ≤ δ * x := hb.2
    have u1 := lgam_between hx hz (show z ≤ 2 * x by linarith)
    have u2 := lgam_between (by linarith : (0 : ℝ) < x / 2) (show x / 2 ≤ x by linarith) hz
    have v1 : (z - x) * (lgam (2 * x) - lgam x) ≤ (z - x) * (2 * G) :=
      mul_le_mul_of_nonneg_left (by linarith) (by linarith)
    have v2 : (z - x) * (lgam (x / 2) - lgam x) ≤ (z - x) * (2 * G) :=
      mul_le_mul_of_nonneg_left (by linarith) (by linarith)
    have v3 : (z - x) * (2 * G) ≤ δ * x * (2 * G) := mul_le_mul_of_nonneg_right hs (by linarith)
    have v4 : 0 ≤ δ * x * G := by positivity
    constructor
    · have := key (-(lgam z - lgam x)) (by linarith)
      linarith
    · exact key _ (by linarith)
  · have hs : x - z ≤ δ * x := by linarith [hb.1]
    have u1 := lgam_between (by linarith : (0 : ℝ) < x / 2) (show x / 2 ≤ z by linarith) hz
    have u2 := lgam_between (by linarith : (0 : ℝ) < z) hz (show x ≤ 2 * x by linarith)
    have v1 : (x - z) * (lgam (2 * x) - lgam x) ≤ (x - z) * (2 * G) :=
      mul_le_mul_of_nonneg_left (by linarith) (by linarith)
    have v2 : (x - z) * (lgam (x / 2) - lgam x) ≤ (x - z) * (2 * G) :=
      mul_le_mul_of_nonneg_left (by linarith) (by linarith)
    have v3 : (x - z) * (2 * G) ≤ δ * x * (2 * G) := mul_le_mul_of_nonneg_right hs (by linarith)
    have v4 : 0 ≤ δ * x * G := by positivity
    constructor
    · have := key (-(lgam z - lgam x)) (by linarith)
      linarith
    · exact key _ (by linarith)

/-- The logarithm of an inaccurate argument. -/
theorem log_near {x z δ : ℝ} (hx : 0 < x) (hδ : δ ≤ 1 / 2) (h : |z - x| ≤ δ * x) :
    0 < z ∧ |Real.log z - Real.log x| ≤ 2 * δ := by
  have hb := _root_.abs_le.1 h
  have hδx : δ * x ≤ 1 / 2 * x := mul_le_mul_of_nonneg_right hδ hx.le
  have hz : 0 < z := by linarith
  have hδ0 : 0 ≤ δ := by
    by_contra hn
    have := (abs_nonneg _).trans h
    nlinarith
  refine ⟨hz, ?_⟩
  rw [_root_.abs_le]
  constructor
  · have := Real.log_le_sub_one_of_pos (div_pos hx hz)
    rw [Real.log_div hx.ne' hz.ne'] at this
    have e : x / z - 1 ≤ 2 * δ := by
      rw [div_sub_one hz.ne', div_le_iff₀ hz]
      nlinarith [hb.1]
    linarith
  · have := Real.log_le_sub_one_of_pos (div_pos hz hx)
    rw [Real.log_div hz.ne' hx.ne'] at this
    have e : z / x - 1 ≤ δ := by
      rw [div_sub_one hx.ne', div_le_iff₀ hx]
      linarith [hb.2]
    linarith

theorem pow_u_le_two {u : ℝ} (hu : 0 ≤ u) (m : Nat) (h : (m : ℝ) * u ≤ 1 / 2) : (1 + u) ^ m - 1 ≤ 2 * (m * u) := by
  have h1 : (1 + u) ^ m ≤ Real.exp (m * u) := by
    rw [Real.exp_nat_mul]
    exact pow_le_pow_left₀ (by linarith) (by linarith [Real.add_one_le_exp u]) m
  have h2 : Real.exp (m * u) ≤ 1 / (1 - m * u) := by
    have := Real.one_sub_le_exp_neg (m * u)
    rw [le_div_iff₀ (by linarith)]
    calc Real.exp (m * u) * (1 - m * u) ≤ Real.exp (m * u) * Real.exp (-(m * u)) :=
          mul_le_mul_of_nonneg_left this (Real.exp_pos _).le
      _ = 1 := by rw [← Real.exp_add]; simp
  have h3 : 1 / (1 - m * u) ≤ 1 + 2 * (m * u) := by
    have : (0 : ℝ) ≤ m * u := by positivity
    rw [div_le_iff₀ (by linarith)]
    nlinarith
  linarith

/-- `w` is `z` up to the fraction `u`. -/
def NearList (u : ℝ) (zs ws : List ℝ) : Prop := List.Forall₂ (fun z w => |w - z| ≤ u * z) zs ws

theorem nearList_self {u : ℝ} (hu : 0 ≤ u) {zs : List ℝ} (h : ∀ z ∈ zs, 0 < z) : NearList u zs zs := by
  induction zs with
  | nil => exact .nil
  | cons z zs ih =>
    refine .cons ?_ (ih fun w hw => h w (by simp [hw]))
    rw [sub_self, abs_zero]
    exact mul_nonneg hu (h z (by simp)).le

theorem forall₂_sum {e M : ℝ} {gs ws : List ℝ} (h : List.Forall₂ (fun g w => |w - g| ≤ e ∧ |w| ≤ M) gs ws) :
    |ws.sum - gs.sum| ≤ gs.length * e ∧ (ws.map abs).sum ≤ gs.length * M ∧ ws.length = gs.length := by
  induction h with
  | nil => simp
  | @cons g w gs ws h _ ih =>
    obtain ⟨i1, i2, i3⟩ := ih
    simp only [List.sum_cons, List.map_cons, List.length_cons, Nat.cast_add, Nat.cast_one]
    refine ⟨?_, by linarith [h.2], by rw [i3]⟩
    have : w + ws.sum - (g + gs.sum) = (w - g) + (ws.sum - gs.sum) := by ring
    rw [this]
    refine (abs_add_le _ _).trans ?_
    linarith [h.1]

theorem nearList_sum {u : ℝ} {zs ws : List ℝ} (h : NearList u zs ws) :
    |ws.sum - zs.sum| ≤ u * zs.sum ∧ ws.length = zs.length := by
  induction h with
  | nil => simp
  | @cons z w zs ws h _ ih =>
    obtain ⟨i1, i2⟩ := ih
    simp only [List.sum_cons, List.length_cons]
    refine ⟨?_, by rw [i2]⟩
    have : w + ws.sum - (z + zs.sum) = (w - z) + (ws.sum - zs.sum) := by ring
    rw [this]
    refine (abs_add_le _ _).trans ?_
    linarith

theorem nearList_pos {u : ℝ} (hu : u < 1) {zs ws : List ℝ} (h : NearList u zs ws) (hz : ∀ z ∈ zs, 0 < z) :
    ∀ w ∈ ws, 0 < w := by
  induction h with
  | nil => simp
  | @cons z w zs ws h _ ih =>
    intro x hx
    rcases List.mem_cons.1 hx with rfl | hx
    · have h0 := hz z (by simp)
      have := (_root_.abs_le.1 h).1
      nlinarith
    · exact ih (fun z hz' => hz z (by simp [hz'])) x hx

/-- A rounded sum of positive numbers. -/
theorem near_sum {u : ℝ} {r : ℝ → ℝ} (hr : RelRound u r) (hu : 0 ≤ u) {zs ws : List ℝ} (h : NearList u zs ws)
    (hz : ∀ z ∈ zs, 0 < z) (hu1 : u < 1) {s : ℝ} (hs : FloatSum r ws s) (hc : (zs.length : ℝ) * u ≤ 1 / 8) :
    |s - zs.sum| ≤ 2 * (zs.length * u) * zs.sum := by
  obtain ⟨h1, h2⟩ := nearList_sum h
  obtain ⟨hl, he⟩ := hs.error hr hu
  have hw := nearList_pos hu1 h hz
  have hws : (ws.map abs).sum = ws.sum := by
    congr 1
    conv_rhs => rw [← List.map_id ws]
    exact List.map_congr_left fun w hw' => abs_of_pos (hw w hw')
  have hz0 : 0 ≤ zs.sum := List.sum_nonneg fun z hz' => (hz z hz').le
  rw [hws, h2] at he
  have h3 : ws.sum ≤ (1 + u) * zs.sum := by linarith [(_root_.abs_le.1 h1).2]
  have h4 : 0 ≤ (1 + u) ^ (zs.length - 1) - 1 := by linarith [one_le_pow_u hu (zs.length - 1)]
  have h5 : |s - zs.sum| ≤ |s - ws.sum| + |ws.sum - zs.sum| := by
    have := abs_add_le (s - ws.sum) (ws.sum - zs.sum)
    rwa [sub_add_sub_cancel] at this
  have h6 := mul_le_mul_of_nonneg_left h3 h4
  have h7 : (1 + u) ^ zs.length = (1 + u) ^ (zs.length - 1) * (1 + u) := by
    rw [← pow_succ]; congr 1; omega
  have h8 := pow_u_le_two hu zs.length (by linarith)
  have h9 := mul_le_mul_of_nonneg_right h8 hz0
  rw [h7] at h9
  linarith

variable {u lo hi : ℝ} {n : Nat} {L : ClsLib ℝ}

theorem gammaSize_bound {lo hi : ℝ} (hlo : 0 < lo) {w : ℝ} (h1 : lo / 2 ≤ w) (h2 : w ≤ 2 * hi) :
    |lgam w| ≤ gammaSize lo hi := lgam_abs_le (by linarith) h1 h2

theorem realFns_gammaln {x : ℝ} (hx : 0 < x) : realFns.gammaln x = lgam x := by
  show Real.log |Real.Gamma x| = _
  rw [abs_of_pos (Real.Gamma_pos_of_pos hx)]
  rfl

theorem realFns_betaln {a b : ℝ} (ha : 0 < a) (hb : 0 < b) : realFns.betaln a b = lgam a + lgam b - lgam (a + b) := by
  have h1 := Real.Gamma_pos_of_pos ha
  have h2 := Real.Gamma_pos_of_pos hb
  have h3 := Real.Gamma_pos_of_pos (add_pos ha hb)
  show Real.log |Real.Gamma a * Real.Gamma b / Real.Gamma (a + b)| = _
  rw [abs_of_pos (by positivity), Real.log_div (by positivity) h3.ne', Real.log_mul h1.ne' h2.ne']
  rfl

/-- `log B` as a sum of `log Γ`. -/
theorem logBeta_lgam {zs : List ℝ} (hz : ∀ z ∈ zs, 0 < z) (hne : zs ≠ []) :
    logBeta realFns zs = (zs.map lgam).sum - lgam zs.sum := by
  have hs : 0 < zs.sum := by
    cases zs with
    | nil => exact absurd rfl hne
    | cons z zs =>
      rw [List.sum_cons]
      have := List.sum_nonneg fun w (hw : w ∈ zs) => (hz w (by simp [hw])).le
      linarith [hz z (by simp)]
  unfold logBeta
  split
  · next h =>
    match zs, h with
    | [a, b], _ =>
      rw [show List.getD [a, b] 0 0 = a from rfl, show List.getD [a, b] 1 0 = b from rfl,
        realFns_betaln (hz a (by simp)) (hz b (by simp))]
      simp
  · rw [realFns_gammaln hs]
    congr 2
    exact List.map_congr_left fun z hz' => realFns_gammaln (hz z hz')

/-- The size of `log B`. -/
theorem logBeta_size (hlo : 0 < lo) {zs : List ℝ} (hz : ∀ z ∈ zs, lo ≤ z) (hs : zs.sum ≤ hi) (hne : zs ≠ []) :
    |logBeta realFns zs| ≤ (zs.length + 1) * gammaSize lo hi ∧ (∀ z ∈ zs, z ≤ hi) ∧ lo ≤ zs.sum := by
  have hle : ∀ z ∈ zs, z ≤ zs.sum := fun z hz' =>
    List.single_le_sum (fun w hw => hlo.le.trans (hz w hw)) z hz'
  have h1 : ∀ z ∈ zs, z ≤ hi := fun z hz' => (hle z hz').trans hs
  have h2 : lo ≤ zs.sum := by
    obtain ⟨z, hz'⟩ := List.exists_mem_of_ne_nil zs hne
    exact (hz z hz').trans (hle z hz')
  have hi0 : 0 < hi := by linarith
  refine ⟨?_, h1, h2⟩
  rw [logBeta_lgam (fun z hz' => hlo.trans_le (hz z hz')) hne]
  have h3 : |(zs.map lgam).sum| ≤ zs.length * gammaSize lo hi := by
    refine (abs_sum_le_list _).trans ?_
    have := List.sum_le_card_nsmul ((zs.map lgam).map abs) (gammaSize lo hi) (by
      intro x hx
      obtain ⟨y, hy, rfl⟩ := List.mem_map.1 hx
      obtain ⟨z, hz', rfl⟩ := List.mem_map.1 hy
      exact gammaSize_bound hlo (by linarith [hz z hz']) (by linarith [h1 z hz']))
    simpa using this
  have h4 := gammaSize_bound (lo := lo) (hi := hi) hlo (w := zs.sum) (by linarith) (by linarith)
  refine (abs_sub _ _).trans ?_
  linarith

theorem combine_error {c u E x y : ℝ} (hc : 1 ≤ c) (hu : 0 ≤ u) (hu8 : u ≤ 1 / 8) (cu : c * u ≤ 1 / 8) (hE : 0 ≤ E)
    (hx : x ≤ (9 / 4 * c ^ 2 + 13 * c + 1) * E) (hy : u * y ≤ (c + 1) * E) :
    x + u * (x + y) ≤ (3 * c ^ 2 + 16 * c + 3) * E := by
  have k1 : u * x ≤ u * ((9 / 4 * c ^ 2 + 13 * c + 1) * E) := mul_le_mul_of_nonneg_left hx hu
  have k0 : u * c ^ 2 ≤ 1 / 8 * c := by
    have := mul_le_mul_of_nonneg_right cu (show 0 ≤ c by linarith)
    linarith [show c * u * c = u * c ^ 2 by ring]
  have k2 : u * (9 / 4 * c ^ 2 + 13 * c + 1) ≤ 9 / 32 * c + 2 := by
    linarith [show u * (9 / 4 * c ^ 2 + 13 * c + 1) = 9 / 4 * (u * c ^ 2) + 13 * (c * u) + u by ring]
  have k3 := mul_le_mul_of_nonneg_right k2 hE
  have k4 : (9 / 4 * c ^ 2 + 13 * c + 1) + (9 / 32 * c + 2) + (c + 1) ≤ 3 * c ^ 2 + 16 * c + 3 := by nlinarith
  have k5 := mul_le_mul_of_nonneg_right k4 hE
  linarith

/-- `multivariate_betaln` of inaccurate arguments. -/
theorem betaln_error (hL : AccurateLib u n L) (hlo : 0 < lo) {zs ws : List ℝ} (h : NearList u zs ws)
    (hz : ∀ z ∈ zs, lo ≤ z) (hs : zs.sum ≤ hi) (hne : zs ≠ []) (hc : (zs.length : ℝ) * u ≤ 1 / 8) :
    |multivariateBetalnR L ws - logBeta realFns zs| ≤
      (3 * zs.length ^ 2 + 16 * zs.length + 3) * (u * (1 + gammaSize lo hi)) := by
  have hu := hL.nonneg
  set G := gammaSize lo hi with hGdef
  obtain ⟨hB, hzhi, hslo⟩ := logBeta_size hlo hz hs hne
  have hz0 : ∀ z ∈ zs, 0 < z := fun z hz' => hlo.trans_le (hz z hz')
  have hl1 : (1 : ℝ) ≤ zs.length := by
    have := List.length_pos_iff.2 hne
    exact_mod_cast this
  have hu8 : u ≤ 1 / 8 := by
    calc u = 1 * u := (one_mul u).symm
      _ ≤ zs.length * u := mul_le_mul_of_nonneg_right hl1 hu
      _ ≤ _ := hc
  have hG0 : 0 ≤ G := (abs_nonneg _).trans (gammaSize_bound hlo (w := zs.sum) (by linarith) (by linarith))
  have near : ∀ z w δ : ℝ, lo ≤ z → z ≤ hi → δ ≤ 1 / 2 → |w - z| ≤ δ * z →
      |lgam w - lgam z| ≤ 4 * δ * G ∧ 0 < w ∧ |lgam w| ≤ G := by
    intro z w δ h1 h2 h3 h4
    have hzp : 0 < z := by linarith
    have h5 := _root_.abs_le.1 h4
    have h6 : δ * z ≤ 1 / 2 * z := mul_le_mul_of_nonneg_right h3 hzp.le
    exact ⟨lgam_near hzp h3 h4 fun v hv1 hv2 => gammaSize_bound hlo (by linarith) (by linarith), by linarith,
      gammaSize_bound hlo (by linarith) (by linarith)⟩
  have hE : 0 ≤ u * (1 + G) := by positivity
  rw [logBeta_lgam hz0 hne] at hB ⊢
  by_cases h2 : zs.length = 2
  · match zs, ws, h with
    | [a, b], [a', b'], .cons ha (.cons hb .nil) =>
      show |L.betaln a' b' - _| ≤ _
      simp only [List.map_cons, List.map_nil, List.sum_cons, List.sum_nil, add_zero]
      obtain ⟨a1, a2, a3⟩ := near a a' u (hz a (by simp)) (hzhi a (by simp)) (by linarith) ha
      obtain ⟨b1, b2, b3⟩ := near b b' u (hz b (by simp)) (hzhi b (by simp)) (by linarith) hb
      simp only [List.sum_cons, List.sum_nil, add_zero] at hs hslo
      obtain ⟨c1, c2, c3⟩ := near (a + b) (a' + b') u hslo hs (by linarith) (by
        have e : a' + b' - (a + b) = (a' - a) + (b' - b) := by ring
        rw [e]
        refine (abs_add_le _ _).trans ?_
        linarith)
      have d := hL.betaln a' b' a2 b2
      have d2 : u * (1 + |lgam a'| + |lgam b'| + |lgam (a' + b')|) ≤ u * (1 + 3 * G) :=
        mul_le_mul_of_nonneg_left (by linarith) hu
      have e : L.betaln a' b' - (lgam a + lgam b - lgam (a + b)) =
          (L.betaln a' b' - (lgam a' + lgam b' - lgam (a' + b'))) + (lgam a' - lgam a) + (lgam b' - lgam b)
            - (lgam (a' + b') - lgam (a + b)) := by ring
      rw [e]
      have t := (abs_sub (L.betaln a' b' - (lgam a' + lgam b' - lgam (a' + b')) + (lgam a' - lgam a)
        + (lgam b' - lgam b)) (lgam (a' + b') - lgam (a + b)))
      have t2 := abs_add_three (L.betaln a' b' - (lgam a' + lgam b' - lgam (a' + b'))) (lgam a' - lgam a) (lgam b' - lgam b)
      have huG : 0 ≤ u * G := by positivity
      have : u * (1 + 3 * G) + 4 * u * G + 4 * u * G + 4 * u * G ≤ 15 * (u * (1 + G)) := by nlinarith
      have f : (15 : ℝ) * (u * (1 + G)) ≤ (3 * ([a, b].length : ℝ) ^ 2 + 16 * ([a, b].length : ℝ) + 3) * (u * (1 + G)) :=
        mul_le_mul_of_nonneg_right (by norm_num) hE
      linarith
  · obtain ⟨-, hlen⟩ := nearList_sum h
    have hwne : ws ≠ [] := by
      intro e; rw [e] at hlen
      have := List.length_pos_iff.2 hne
      simp at hlen; omega
    have hm : multivariateBetalnR L ws = L.r (L.sum (ws.map L.gammaln) - L.gammaln (L.sum ws)) := by
      unfold multivariateBetalnR
      match ws, hlen with
      | [], _ => rfl
      | [_], _ => rfl
      | [_, _], hlen => exact absurd hlen.symm h2
      | _ :: _ :: _ :: _, _ => rfl
    rw [hm]
    set c : ℝ := (zs.length : ℝ) with hcdef
    -- the sum of the arguments
    have s1 := near_sum hL.round hu h hz0 (by linarith) (hL.sum ws hwne) hc
    obtain ⟨s2, s3, s4⟩ := near zs.sum (L.sum ws) (2 * (c * u)) hslo hs (by linarith) s1
    have s5 := hL.gammaln _ s3
    have s6 : u * (1 + |lgam (L.sum ws)|) ≤ u * (1 + G) := mul_le_mul_of_nonneg_left (by linarith) hu
    -- the sum of the values
    have g0 : List.Forall₂ (fun g w => |w - g| ≤ 5 * (u * (1 + G)) ∧ |w| ≤ 9 / 8 * (1 + G)) (zs.map lgam)
        (ws.map L.gammaln) := by
      clear hm s1 s2 s3 s4 s5 s6 hwne hlen h2 hB hslo hs hc hl1 hne hz0
      clear hcdef
      induction h with
      | nil => exact .nil
      | @cons z w zs' ws' hzw _ ih =>
        refine .cons ?_ (ih (fun z hz' => hz z (by simp [hz'])) fun z hz' => hzhi z (by simp [hz']))
        obtain ⟨a1, a2, a3⟩ := near z w u (hz z (by simp)) (hzhi z (by simp)) (by linarith) hzw
        have a4 := hL.gammaln w a2
        have a5 : u * (1 + |lgam w|) ≤ u * (1 + G) := mul_le_mul_of_nonneg_left (by linarith) hu
        have a6 : u * (1 + G) ≤ 1 / 8 * (1 + G) := mul_le_mul_of_nonneg_right hu8 (by linarith)
        have t1 := abs_add_le (L.gammaln w - lgam w) (lgam w - lgam z)
        rw [sub_add_sub_cancel] at t1
        have t2 := abs_add_le (L.gammaln w - lgam w) (lgam w)
        rw [sub_add_cancel] at t2
        constructor
        · linarith
        · linarith
    obtain ⟨g1, g2, g3⟩ := forall₂_sum g0
    have g4 := hL.sum (ws.map L.gammaln) (by simpa using hwne)
    obtain ⟨-, g5⟩ := g4.error hL.round hu
    rw [List.length_map] at g1 g2
    rw [List.length_map, hlen] at g5
    have g6 : (1 + u) ^ (zs.length - 1) - 1 ≤ 2 * (c * u) := by
      refine le_trans ?_ (pow_u_le_two hu zs.length (by linarith))
      linarith [pow_u_mono hu (show zs.length - 1 ≤ zs.length by omega)]
    have g7 : ((1 + u) ^ (zs.length - 1) - 1) * ((ws.map L.gammaln).map abs).sum ≤
        2 * (c * u) * (c * (9 / 8 * (1 + G))) :=
      mul_le_mul g6 g2 (abs_sum_nonneg _) (by positivity)
    -- the difference
    set A := L.sum (ws.map L.gammaln)
    set B := L.gammaln (L.sum ws)
    set a := (zs.map lgam).sum
    set b := lgam zs.sum
    have d1 : |A - a| ≤ 2 * (c * u) * (c * (9 / 8 * (1 + G))) + c * (5 * (u * (1 + G))) := by
      have := abs_add_le (A - (ws.map L.gammaln).sum) ((ws.map L.gammaln).sum - a)
      rw [sub_add_sub_cancel] at this
      linarith
    have d2 : |B - b| ≤ u * (1 + G) + 4 * (2 * (c * u)) * G := by
      have := abs_add_le (B - lgam (L.sum ws)) (lgam (L.sum ws) - b)
      rw [sub_add_sub_cancel] at this
      linarith
    have d3 : |(A - B) - (a - b)| ≤ |A - a| + |B - b| := by
      have e : (A - B) - (a - b) = (A - a) - (B - b) := by ring
      rw [e]; exact abs_sub _ _
    have d4 := hL.round (A - B)
    have d5 : |A - B| ≤ |(A - B) - (a - b)| + |a - b| := by
      have := abs_add_le ((A - B) - (a - b)) (a - b)
      rwa [sub_add_cancel] at this
    have d6 : |L.r (A - B) - (a - b)| ≤ |L.r (A - B) - (A - B)| + |(A - B) - (a - b)| := by
      have := abs_add_le (L.r (A - B) - (A - B)) ((A - B) - (a - b))
      rwa [sub_add_sub_cancel] at this
    -- put together, in units of `u (1 + G)`
    set E := u * (1 + G) with hEdef
    have cu : c * u ≤ 1 / 8 := hc
    have e1 : 2 * (c * u) * (c * (9 / 8 * (1 + G))) = 9 / 4 * c ^ 2 * E := by rw [hEdef]; ring
    have e2 : 4 * (2 * (c * u)) * G ≤ 8 * c * E := by
      have : 0 ≤ c * u := by positivity
      rw [hEdef]; nlinarith
    have f1 : |(A - B) - (a - b)| ≤ (9 / 4 * c ^ 2 + 13 * c + 1) * E := by
      linarith
    have f2 : u * |a - b| ≤ (c + 1) * E := by
      calc u * |a - b| ≤ u * ((c + 1) * G) := mul_le_mul_of_nonneg_left hB hu
        _ ≤ _ := by
          rw [hEdef]
          have : 0 ≤ u * (c + 1) := by positivity
          nlinarith
    have f4 := mul_le_mul_of_nonneg_left d5 hu
    have f5 := combine_error hl1 hu hu8 cu hE f1 f2
    linarith

end BT
