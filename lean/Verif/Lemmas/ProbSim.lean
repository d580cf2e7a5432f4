import Verif.Lemmas.Real

/-!
# Classification with log-gamma scores simulates classification with exact probabilities
-/

namespace BT
open Spec

theorem clsPosterior_cast {K : Type} [Field K] [LinearOrder K] (f : K →+* ℝ) (ys p : List K) (δ : K) :
    clsPosterior (ys.map f) (p.map f) (f δ) = (clsPosterior ys p δ).map f := by
  unfold clsPosterior
  by_cases h : δ = 0
  · simp [h]
  · rw [if_neg h, if_neg (fun e => h (f.injective (by simpa using e)))]
    apply List.ext_getElem
    · simp
    · intro i h1 h2
      simp [classCount_eq, count_cast]

theorem clsPosterior_pos {K : Type} [Field K] [LinearOrder K] [IsStrictOrderedRing K]
    {p : List K} (hp : ∀ a ∈ p, 0 < a) (ys : List K) {δ : K} (hδ : 0 ≤ δ) :
    ∀ a ∈ clsPosterior ys p δ, 0 < a := by
  unfold clsPosterior
  split
  · exact hp
  · intro a ha
    obtain ⟨i, hi, rfl⟩ := List.mem_mapIdx.1 ha
    have := hp _ (List.getElem_mem hi)
    positivity

theorem clsPosterior_length {K : Type} [Field K] [LinearOrder K] (p ys : List K) (δ : K) :
    (clsPosterior ys p δ).length = p.length := by
  unfold clsPosterior
  split <;> simp

/-- A prior with at least one class and positive concentrations. -/
def GoodPrior {K : Type} [Zero K] [LT K] (p : List K) : Prop := p ≠ [] ∧ ∀ a ∈ p, 0 < a

theorem prob_sim {V V' K : Type} [Field K] [LinearOrder K] [IsStrictOrderedRing K] (f : K →+* ℝ)
    (hf : StrictMono f) {ok : V → Prop} {n : Nat} (fV : Nat → V → V')
    (c : Ctx V K (List K) K (List K)) (c' : Ctx V' ℝ (List ℝ) ℝ (List ℝ))
    (hT : c.T = probTarget K) (hpair : c.pair = probPair)
    (hT' : c'.T = clsTarget realFns) (hpair' : c'.pair = clsPair realFns)
    (nDim : c'.nDim = c.nDim) (names : c'.names = c.names) (hpos : 0 < c.nDim)
    (X : ∀ i d, i < n → d < c.nDim → c'.X i d = fV d (c.X i d))
    (y : ∀ i, i < n → c'.y i = f (c.y i))
    (le : ∀ d a b, ok a → ok b → c'.o.le (fV d a) (fV d b) = c.o.le a b)
    (gap : ∀ d a b, ok a → ok b →
      c'.o.gap c'.hp.splitPrecision (fV d a) (fV d b) = c.o.gap c.hp.splitPrecision a b)
    (mid : ∀ d a b, ok a → ok b → c'.o.mid (fV d a) (fV d b) = fV d (c.o.mid a b))
    (lt : ∀ d a v, ok a → c'.o.lt (fV d a) (fV d v) = c.o.lt a v)
    (ge : ∀ d a v, ok a → c'.o.ge (fV d a) (fV d v) = c.o.ge a v)
    (hpp : c'.hp.partitionPrior = f c.hp.partitionPrior) (hδ : c'.hp.delta = f c.hp.delta)
    (pp0 : 0 < c.hp.partitionPrior) (pp1 : c.hp.partitionPrior < 1) (δ0 : 0 ≤ c.hp.delta) :
    Sim ok c c' n fV f (List.map f) (fun s => Real.log (f s)) GoodPrior (fun _ => True)
      (fun s => 0 < s) := by
  have hfpos : ∀ x, 0 < x → 0 < f x := fun x hx => by simpa using hf hx
  have gp : ∀ p : List K, GoodPrior p → GoodPrior (p.map f) := by
    intro p hp
    refine ⟨by simpa using hp.1, ?_⟩
    intro a ha
    obtain ⟨b, hb, rfl⟩ := List.mem_map.1 ha
    exact hfpos b (hp.2 b hb)
  have hpw : ∀ lv, 0 < c.hp.partitionPrior ^ (lv + 1) ∧ c.hp.partitionPrior ^ (lv + 1) < 1 :=
    fun lv => ⟨by positivity, pow_lt_one₀ pp0.le pp1 (by omega)⟩
  exact
  { nDim := nDim
    names := names
    X := X
    y := y
    le := le
    gap := fun d a b ha hb _ => gap d a b ha hb
    mid := mid
    lt := lt
    ge := ge
    okTarget := fun _ _ => trivial
    inj := fun a b _ _ h => f.injective h
    delta := by
      rw [hδ]
      exact ⟨fun h => f.injective (by simpa using h), fun h => by simp [h]⟩
    posterior1 := by
      intro ys p _ _ _
      rw [hT, hT']
      have := clsPosterior_cast f ys p 1
      rw [map_one] at this
      exact this
    posteriorD := by
      intro hδ' ys p hp _ _
      rw [hT, hT', hδ]
      refine ⟨clsPosterior_cast f ys p _, ?_, clsPosterior_pos hp.2 ys δ0⟩
      show clsPosterior ys p _ ≠ []
      rw [← List.length_pos_iff, clsPosterior_length, List.length_pos_iff]
      exact hp.1
    noSplit := by
      intro lv ys p hp _ _
      have h1 := dirMult_pos hp.1 hp.2 ys
      have h2 : 0 < 1 - c.hp.partitionPrior ^ (lv + 1) := by linarith [(hpw lv).2]
      rw [hT, hT', hpp]
      refine ⟨?_, mul_pos h2 h1⟩
      show clsLogNoSplit realFns _ _ _ _ = Real.log (f ((1 - c.hp.partitionPrior ^ (lv + 1)) * dirMult p ys))
      rw [clsLogNoSplit_eq, dirichletMarginal_real (gp p hp).1 (gp p hp).2, map_mul, Real.log_mul
        (hfpos _ h2).ne' (hfpos _ h1).ne', dirMult_cast]
      congr 1
      show Real.log _ = _
      simp
    pair := by
      intro lv p ns a b hp hns _ _ _ _
      have h1 := dirMult_pos hp.1 hp.2 a
      have h2 := dirMult_pos hp.1 hp.2 b
      have h3 : 0 < c.hp.partitionPrior ^ (lv + 1) / ((ns : K) * (c.nDim : K)) := by
        have := (hpw lv).1
        positivity
      rw [hpair, hpair', hpp]
      refine ⟨?_, mul_pos (mul_pos h3 h1) h2⟩
      unfold clsPair probPair
      rw [dirichletMarginal_real (gp p hp).1 (gp p hp).2, dirichletMarginal_real (gp p hp).1 (gp p hp).2,
        map_mul, map_mul, Real.log_mul (mul_pos (hfpos _ h3) (hfpos _ h1)).ne' (hfpos _ h2).ne',
        Real.log_mul (hfpos _ h3).ne' (hfpos _ h1).ne', dirMult_cast, dirMult_cast]
      congr 2
      unfold logSplitPrior
      show Real.log _ = _
      simp
    mono := by
      intro a b ha hb
      rw [Real.log_lt_log_iff (hfpos a ha) (hfpos b hb)]
      exact hf.lt_iff_lt }

end BT
