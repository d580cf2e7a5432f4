import Verif.Props.Sphere
import Mathlib.Analysis.SpecialFunctions.Complex.Arg
import Mathlib.Analysis.SpecialFunctions.Trigonometric.Inverse

/-!
# Every direction can be reached: C64
-/

namespace BT

/-- Polar coordinates with the angle measured in turns. -/
theorem exists_turn (a b : ℝ) : ∃ v, 0 ≤ v ∧ v ≤ 1 ∧
    a = Real.sqrt (a ^ 2 + b ^ 2) * Real.cos (2 * Real.pi * v) ∧
    b = Real.sqrt (a ^ 2 + b ^ 2) * Real.sin (2 * Real.pi * v) := by
  have hn : ‖(⟨a, b⟩ : ℂ)‖ = Real.sqrt (a ^ 2 + b ^ 2) := by
    rw [Complex.norm_def, Complex.normSq_mk]
    congr 1
    ring
  have hc := Complex.norm_mul_cos_arg ⟨a, b⟩
  have hs := Complex.norm_mul_sin_arg ⟨a, b⟩
  have h1 := Complex.neg_pi_lt_arg ⟨a, b⟩
  have h2 := Complex.arg_le_pi ⟨a, b⟩
  rw [hn] at hc hs
  simp only at hc hs
  have hpi := Real.pi_pos
  rcases le_or_gt 0 (Complex.arg ⟨a, b⟩) with h | h
  · refine ⟨Complex.arg ⟨a, b⟩ / (2 * Real.pi), by positivity, ?_, ?_, ?_⟩
    · rw [div_le_one (by positivity)]; linarith
    · rw [mul_div_cancel₀ _ (by positivity)]; exact hc.symm
    · rw [mul_div_cancel₀ _ (by positivity)]; exact hs.symm
  · have e : 2 * Real.pi * ((Complex.arg ⟨a, b⟩ + 2 * Real.pi) / (2 * Real.pi)) =
        Complex.arg ⟨a, b⟩ + 2 * Real.pi := mul_div_cancel₀ _ (by positivity)
    refine ⟨(Complex.arg ⟨a, b⟩ + 2 * Real.pi) / (2 * Real.pi), ?_, ?_, ?_, ?_⟩
    · apply div_nonneg <;> linarith
    · rw [div_le_one (by positivity)]; linarith
    · rw [e, Real.cos_add_two_pi]; exact hc.symm
    · rw [e, Real.sin_add_two_pi]; exact hs.symm

theorem sphereEven_append (p : List ℝ) (l1 l2 : List Nat) (x y : List ℝ) (h : sphereEven p l1 x = .ok y) :
    sphereEven p (l1 ++ l2) x = sphereEven p l2 y := by
  induction l1 generalizing x with
  | nil => cases h; rfl
  | cons i l1 ih =>
    rw [List.cons_append]
    conv_lhs => unfold sphereEven
    unfold sphereEven at h
    split at h
    · next u v hu hv =>
      exact ih _ h
    · cases h

theorem sphereOdd_append (p : List ℝ) (l1 l2 : List Nat) (x y : List ℝ) (h : sphereOdd p l1 x = .ok y) :
    sphereOdd p (l1 ++ l2) x = sphereOdd p l2 y := by
  induction l1 generalizing x with
  | nil => cases h; rfl
  | cons i l1 ih =>
    rw [List.cons_append]
    conv_lhs => unfold sphereOdd
    unfold sphereOdd at h
    split at h
    · next u v hu hv =>
      exact ih _ h
    · cases h

theorem sphereEven_mono (p q : List ℝ) (l : List Nat) (x y : List ℝ) (h : sphereEven p l x = .ok y) :
    sphereEven (p ++ q) l x = .ok y := by
  induction l generalizing x with
  | nil => exact h
  | cons i l ih =>
    unfold sphereEven at h ⊢
    split at h
    · next u v hu hv =>
      rw [List.getElem?_append_left (List.getElem?_eq_some_iff.1 hu).1,
        List.getElem?_append_left (List.getElem?_eq_some_iff.1 hv).1, hu, hv]
      exact ih _ h
    · cases h

theorem sphereOdd_mono (p q : List ℝ) (l : List Nat) (x y : List ℝ) (h : sphereOdd p l x = .ok y) :
    sphereOdd (p ++ q) l x = .ok y := by
  induction l generalizing x with
  | nil => exact h
  | cons i l ih =>
    unfold sphereOdd at h ⊢
    split at h
    · next u v hu hv =>
      rw [List.getElem?_append_left (List.getElem?_eq_some_iff.1 hu).1,
        List.getElem?_append_left (List.getElem?_eq_some_iff.1 hv).1, hu, hv]
      exact ih _ h
    · cases h

theorem pyRange_snoc (a b : Nat) (h : a ≤ b) : pyRange a (b + 1) = pyRange a b ++ [b] := by
  unfold pyRange
  rw [show b + 1 - a = (b - a) + 1 by omega, List.range_succ, List.map_append, List.map_cons, List.map_nil,
    show a + (b - a) = b by omega]

/-- Two more cube coordinates extend the point by two coordinates. -/
theorem spherePoint_snoc (p : List ℝ) (half : Bool) (u v : ℝ) (x : List ℝ)
    (hp : p.length ≠ 0 ∨ half = true) (h : spherePoint p half = .ok x) :
    spherePoint (p ++ [u, v]) half = .ok (sphereExtend x (p.length + 1) u v) := by
  unfold spherePoint at h ⊢
  simp only [List.length_append, List.length_cons, List.length_nil] at h ⊢
  by_cases he : (1 + p.length) % 2 = 0
  · have he' : (1 + (p.length + (0 + 1 + 1))) % 2 = 0 := by omega
    rw [if_pos he] at h
    rw [if_pos he']
    have hl : 0 < p.length := by omega
    rw [List.getElem?_append_left hl]
    rw [List.getElem?_eq_getElem hl] at h ⊢
    simp only at h ⊢
    rw [show (1 + (p.length + (0 + 1 + 1))) / 2 = (1 + p.length) / 2 + 1 by omega,
      pyRange_snoc _ _ (by omega), sphereEven_append _ _ _ _ _ (sphereEven_mono p [u, v] _ _ _ h)]
    unfold sphereEven
    rw [show 2 * ((1 + p.length) / 2) = p.length + 1 by omega, List.getElem?_append_right (by omega),
      List.getElem?_append_right (by omega), show p.length + 1 - 1 - p.length = 0 by omega,
      show p.length + 1 - p.length = 1 by omega]
    rfl
  · have he' : ¬ (1 + (p.length + (0 + 1 + 1))) % 2 = 0 := by omega
    rw [if_neg he] at h
    rw [if_neg he']
    have hstep : ∀ y : List ℝ, ∀ a, a ≤ (1 + p.length + 1) / 2 →
        sphereOdd p (pyRange a ((1 + p.length + 1) / 2)) y = .ok x →
        sphereOdd (p ++ [u, v]) (pyRange a ((1 + (p.length + (0 + 1 + 1)) + 1) / 2)) y =
          .ok (sphereExtend x (p.length + 1) u v) := by
      intro y a ha hy
      rw [show (1 + (p.length + (0 + 1 + 1)) + 1) / 2 = (1 + p.length + 1) / 2 + 1 by omega,
        pyRange_snoc _ _ ha, sphereOdd_append _ _ _ _ _ (sphereOdd_mono p [u, v] _ _ _ hy)]
      unfold sphereOdd
      rw [show 2 * ((1 + p.length + 1) / 2) = p.length + 2 by omega, List.getElem?_append_right (by omega),
        List.getElem?_append_right (by omega), show p.length + 2 - 2 - p.length = 0 by omega,
        show p.length + 2 - 1 - p.length = 1 by omega]
      rfl
    cases half with
    | true =>
      rw [if_pos rfl] at h
      rw [if_pos rfl]
      exact hstep _ 1 (by omega) h
    | false =>
      have hl : 1 < p.length := by
        rcases hp with hp | hp
        · omega
        · cases hp
      rw [if_neg (by decide), if_neg (by omega)] at h
      rw [if_neg (by decide), if_neg (by omega), List.getElem?_append_left (by omega),
        List.getElem?_append_left hl]
      rw [List.getElem?_eq_getElem (show 0 < p.length by omega), List.getElem?_eq_getElem hl] at h ⊢
      exact hstep _ 2 (by omega) h

theorem sumSq_eq_zero {x : List ℝ} (h : sumSq x = 0) : ∀ a ∈ x, a = 0 := by
  induction x with
  | nil => intro a ha; cases ha
  | cons b x ih =>
    have e : sumSq (b :: x) = b ^ 2 + sumSq x := by simp [sumSq]
    rw [e] at h
    have h1 := sumSq_nonneg x
    have h2 : b ^ 2 = 0 := by nlinarith [sq_nonneg b]
    intro a ha
    rcases List.mem_cons.1 ha with rfl | ha
    · exact pow_eq_zero_iff (by norm_num) |>.1 h2
    · exact ih (by linarith) a ha

/-- A unit vector of `m + 2` coordinates extends a unit vector of `m` coordinates. -/
theorem sphereExtend_onto {half : Bool} {m : Nat} (hm : 0 < m) (x : List ℝ) (a b : ℝ) (hlen : x.length = m)
    (hunit : sumSq (x ++ [a, b]) = 1) (hfirst : half = true → ∀ c, x[0]? = some c → 0 ≤ c) :
    ∃ y u v, OnSphere half m y ∧ 0 ≤ u ∧ u ≤ 1 ∧ 0 ≤ v ∧ v ≤ 1 ∧ sphereExtend y m u v = x ++ [a, b] := by
  have hsum : sumSq x + (a ^ 2 + b ^ 2) = 1 := by
    rw [sumSq_append] at hunit
    rw [← hunit]
    simp [sumSq]
  have hx0 := sumSq_nonneg x
  obtain ⟨v, hv0, hv1, hva, hvb⟩ := exists_turn a b
  set s := Real.sqrt (sumSq x) with hs
  have hs0 : 0 ≤ s := Real.sqrt_nonneg _
  have hss : s ^ 2 = sumSq x := Real.sq_sqrt hx0
  have hs1 : s ≤ 1 := by
    by_contra hlt
    have h1 : 1 < s := not_le.1 hlt
    nlinarith [sq_nonneg a, sq_nonneg b]
  have hroot : (s ^ m) ^ ((1 : ℝ) / (m : ℝ)) = s := by
    rw [← Real.rpow_natCast, ← Real.rpow_mul hs0, mul_one_div_cancel (by positivity), Real.rpow_one]
  have key : ∀ y : List ℝ, y.map (· * s) = x → sphereExtend y m (s ^ m) v = x ++ [a, b] := by
    intro y hy
    unfold sphereExtend
    simp only [hroot, hy]
    have e1 : (x.map (· ^ 2)).sum = sumSq x := rfl
    rw [e1, show 1 - sumSq x = a ^ 2 + b ^ 2 by linarith, max_eq_right (by positivity), ← hva, ← hvb]
  have hu0 : 0 ≤ s ^ m := pow_nonneg hs0 _
  have hu1 : s ^ m ≤ 1 := pow_le_one₀ hs0 hs1
  rcases hs0.lt_or_eq with hpos | hzero
  · refine ⟨x.map (· * s⁻¹), s ^ m, v, ⟨by simpa using hlen, ?_, ?_⟩, hu0, hu1, hv0, hv1, key _ ?_⟩
    · rw [sumSq_smul, ← hss]
      field_simp
    · intro hh c hc
      rw [List.getElem?_map] at hc
      obtain ⟨d, hd, rfl⟩ := Option.map_eq_some_iff.1 hc
      exact mul_nonneg (hfirst hh d hd) (inv_nonneg.2 hs0)
    · rw [List.map_map]
      conv_rhs => rw [← List.map_id x]
      apply List.map_congr_left
      intro c _
      simp only [Function.comp, id]
      field_simp
  · have hz : ∀ c ∈ x, c = 0 := sumSq_eq_zero (by rw [← hss, ← hzero]; norm_num)
    refine ⟨1 :: List.replicate (m - 1) 0, s ^ m, v, ⟨by simp; omega, ?_, ?_⟩, hu0, hu1, hv0, hv1, key _ ?_⟩
    · simp [sumSq]
    · intro _ c hc
      simp only [List.getElem?_cons_zero, Option.some.injEq] at hc
      rw [← hc]; exact zero_le_one
    · rw [← hzero]
      apply List.ext_getElem
      · simp; omega
      · intro i h1 h2
        rw [List.getElem_map, mul_zero]
        exact (hz _ (List.getElem_mem h2)).symm

theorem snoc2 {x : List ℝ} {m : Nat} (h : x.length = m + 2) : ∃ x' a b, x = x' ++ [a, b] ∧ x'.length = m := by
  refine ⟨x.take m, x[m], x[m + 1], ?_, by simp; omega⟩
  apply List.ext_getElem
  · simp; omega
  · intro i h1 h2
    rcases Nat.lt_or_ge i m with hi | hi
    · rw [List.getElem_append_left (by simp; omega), List.getElem_take]
    · rw [List.getElem_append_right (by simp; omega)]
      have : i = m ∨ i = m + 1 := by omega
      rcases this with rfl | rfl
      · simp [Nat.min_eq_left (show i ≤ x.length by omega)]
      · simp [Nat.min_eq_left (show m ≤ x.length by omega)]

/-- Every unit vector (on the half sphere: with non-negative first coordinate) is reached. -/
theorem spherePoint_onto (half : Bool) (m : Nat) (hm : 2 ≤ m ∨ (half = true ∧ m = 1)) (x : List ℝ)
    (hx : OnSphere half m x) :
    ∃ p : List ℝ, p.length + 1 = m ∧ (∀ u ∈ p, 0 ≤ u ∧ u ≤ 1) ∧ spherePoint p half = .ok x := by
  induction m using Nat.strong_induction_on generalizing x with
  | _ m ih =>
    have hpi := Real.pi_pos
    by_cases h1 : m = 1
    · -- half, one coordinate
      subst h1
      obtain ⟨a, ha⟩ := List.length_eq_one_iff.1 hx.length
      have hhalf : half = true := by
        rcases hm with h | h
        · omega
        · exact h.1
      have h0 := hx.first hhalf a (by rw [ha]; rfl)
      have hu := hx.unit
      rw [ha] at hu
      simp only [sumSq, List.map_cons, List.map_nil, List.sum_cons, List.sum_nil, add_zero] at hu
      have ha1 : a = 1 := by nlinarith
      refine ⟨[], rfl, by simp, ?_⟩
      rw [ha, ha1, hhalf]
      rfl
    by_cases h2 : m = 2
    · subst h2
      obtain ⟨a, b, hab⟩ := List.length_eq_two.1 hx.length
      have hu := hx.unit
      rw [hab] at hu
      simp only [sumSq, List.map_cons, List.map_nil, List.sum_cons, List.sum_nil, add_zero] at hu
      cases hh : half with
      | false =>
        obtain ⟨v, hv0, hv1, hva, hvb⟩ := exists_turn a b
        rw [hu, Real.sqrt_one, one_mul] at hva hvb
        refine ⟨[v], rfl, by simpa using ⟨hv0, hv1⟩, ?_⟩
        rw [hab]
        have e : spherePoint [v] false =
            Except.ok [Real.cos (2 * Real.pi * v), Real.sin (2 * Real.pi * v)] := by
          simp [spherePoint, pyRange, sphereEven]
        rw [e, ← hva, ← hvb]
      | true =>
        have h0 := hx.first hh a (by rw [hab]; rfl)
        have hb1 : -1 ≤ b := by nlinarith [sq_nonneg a]
        have hb2 : b ≤ 1 := by nlinarith [sq_nonneg a]
        have e : Real.pi * (Real.arcsin b / Real.pi + 1 / 2 - 1 / 2) = Real.arcsin b := by
          rw [add_sub_cancel_right, mul_div_cancel₀ _ hpi.ne']
        refine ⟨[Real.arcsin b / Real.pi + 1 / 2], rfl, ?_, ?_⟩
        · intro u hu'
          simp only [List.mem_singleton] at hu'
          subst hu'
          have l1 := Real.neg_pi_div_two_le_arcsin b
          have l2 := Real.arcsin_le_pi_div_two b
          constructor
          · have : -(1 / 2) ≤ Real.arcsin b / Real.pi := by
              rw [le_div_iff₀ hpi]; linarith
            linarith
          · have : Real.arcsin b / Real.pi ≤ 1 / 2 := by
              rw [div_le_iff₀ hpi]; linarith
            linarith
        · rw [hab]
          have e' : ∀ w, spherePoint [w] true =
              Except.ok [Real.cos (Real.pi * (w - 1 / 2)), Real.sin (Real.pi * (w - 1 / 2))] := by
            intro w
            simp [spherePoint, pyRange, sphereEven]
          rw [e', e, Real.cos_arcsin, Real.sin_arcsin hb1 hb2, show 1 - b ^ 2 = a ^ 2 by linarith,
            Real.sqrt_sq h0]
    by_cases h3 : m = 3 ∧ half = false
    · obtain ⟨rfl, hh⟩ := h3
      subst hh
      obtain ⟨a, b, c, habc⟩ := List.length_eq_three.1 hx.length
      have hu := hx.unit
      rw [habc] at hu
      simp only [sumSq, List.map_cons, List.map_nil, List.sum_cons, List.sum_nil, add_zero] at hu
      have hc1 : -1 ≤ c := by nlinarith [sq_nonneg a, sq_nonneg b]
      have hc2 : c ≤ 1 := by nlinarith [sq_nonneg a, sq_nonneg b]
      obtain ⟨v, hv0, hv1, hva, hvb⟩ := exists_turn a b
      have e : 2 * ((1 + c) / 2) - 1 = c := by ring
      refine ⟨[(1 + c) / 2, v], rfl, ?_, ?_⟩
      · intro u hu'
        simp only [List.mem_cons, List.not_mem_nil, or_false] at hu'
        rcases hu' with rfl | rfl
        · constructor <;> linarith
        · exact ⟨hv0, hv1⟩
      · rw [habc]
        have e' : ∀ w, spherePoint [w, v] false =
            Except.ok [Real.sin (Real.arccos (2 * w - 1)) * Real.cos (2 * Real.pi * v),
              Real.sin (Real.arccos (2 * w - 1)) * Real.sin (2 * Real.pi * v),
              Real.cos (Real.arccos (2 * w - 1))] := by
          intro w
          simp [spherePoint, pyRange, sphereOdd]
        rw [e', e, Real.sin_arccos, Real.cos_arccos hc1 hc2, show 1 - c ^ 2 = a ^ 2 + b ^ 2 by linarith, ← hva, ← hvb]
    · -- two more coordinates
      have hm3 : 3 ≤ m := by omega
      obtain ⟨n, rfl⟩ : ∃ n, m = n + 2 := ⟨m - 2, by omega⟩
      obtain ⟨x', a, b, rfl, hl'⟩ := snoc2 hx.length
      have hn : 2 ≤ n ∨ (half = true ∧ n = 1) := by
        cases half with
        | true =>
          rcases Nat.lt_or_ge n 2 with h | h
          · exact .inr ⟨rfl, by omega⟩
          · exact .inl h
        | false =>
          left
          by_contra hlt
          exact h3 ⟨by omega, rfl⟩
      have hnpos : 0 < n := by omega
      obtain ⟨y, u, v, hy, hu0, hu1, hv0, hv1, hext⟩ := sphereExtend_onto hnpos x' a b hl' hx.unit
        (fun hh c hc => hx.first hh c (by
          rw [List.getElem?_append_left (by omega)]; exact hc))
      obtain ⟨p, hp1, hp2, hp3⟩ := ih n (by omega) hn y hy
      refine ⟨p ++ [u, v], by simp; omega, ?_, ?_⟩
      · intro w hw
        rcases List.mem_append.1 hw with h | h
        · exact hp2 w h
        · simp only [List.mem_cons, List.not_mem_nil, or_false] at h
          rcases h with rfl | rfl
          · exact ⟨hu0, hu1⟩
          · exact ⟨hv0, hv1⟩
      · rw [spherePoint_snoc p half u v y (by
          rcases hn with h | h
          · left; omega
          · exact .inr h.1) hp3, hp1, hext]

/-- C64: the map from the cube is onto: every unit vector in `D + 1 ≥ 2` dimensions — for the half sphere
every one with non-negative first coordinate — is the image of a point of the `D`-dimensional cube. -/
theorem C64_onto (half : Bool) (x : List ℝ) (hlen : 2 ≤ x.length) (hunit : (x.map fun a => a ^ 2).sum = 1)
    (hfirst : half = true → ∀ a, x[0]? = some a → 0 ≤ a) :
    ∃ p : List (XF ℝ), p.length + 1 = x.length ∧ InCube p ∧ hypersphere p half = .ok x := by
  obtain ⟨p, h1, h2, h3⟩ := spherePoint_onto half x.length (.inl hlen) x ⟨rfl, hunit, hfirst⟩
  have hcube : InCube (p.map XF.fin) := by
    intro y hy
    obtain ⟨u, hu, rfl⟩ := List.mem_map.1 hy
    exact ⟨u, rfl, h2 u hu⟩
  refine ⟨p.map XF.fin, by simpa using h1, hcube, ?_⟩
  obtain ⟨c1, c2⟩ := (cube_checks (p.map XF.fin)).2 hcube
  unfold hypersphere
  rw [c1, c2]
  have e : (p.map XF.fin).map XF.toReal = p := by
    rw [List.map_map]
    conv_rhs => rw [← List.map_id p]
    apply List.map_congr_left
    intro a _
    rfl
  simp only [Bool.not_true, Bool.false_eq_true, if_false, e, h3, hunit, Real.sqrt_one, div_one, List.map_id']
  rw [if_neg (by rw [List.length_map]; omega)]

/-- C64: up to orientation every hyperplane normal can be reached through the half sphere used by the
optimizers: for every unit vector, it or its negative is the image of a cube point. -/
theorem C64_every_plane (x : List ℝ) (hlen : 2 ≤ x.length) (hunit : (x.map fun a => a ^ 2).sum = 1) :
    ∃ p : List (XF ℝ), InCube p ∧
      (hypersphere p true = .ok x ∨ hypersphere p true = .ok (x.map fun a => -a)) := by
  by_cases h : ∀ a, x[0]? = some a → 0 ≤ a
  · obtain ⟨p, -, h1, h2⟩ := C64_onto true x hlen hunit (fun _ => h)
    exact ⟨p, h1, .inl h2⟩
  · push Not at h
    obtain ⟨a, ha, hneg⟩ := h
    obtain ⟨p, -, h1, h2⟩ := C64_onto true (x.map fun a => -a) (by simpa using hlen)
      (by
        rw [List.map_map, ← hunit]
        congr 1
        apply List.map_congr_left
        intro b _
        simp) (fun _ b hb => by
        rw [List.getElem?_map, ha] at hb
        simp only [Option.map_some, Option.some.injEq] at hb
        linarith)
    exact ⟨p, h1, .inr h2⟩

example : ∃ p : List (XF ℝ), InCube p ∧
    (hypersphere p true = .ok [-3/5, 0, 4/5, 0] ∨
      hypersphere p true = .ok ([-3/5, 0, 4/5, 0].map fun a : ℝ => -a)) :=
  C64_every_plane _ (by simp) (by norm_num)

end BT
