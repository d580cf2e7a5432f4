import Verif.Model.Optimize
import Verif.Lemmas.HyperFit

/-!
# Reasoning about optimizer programs
-/

set_option linter.unusedSectionVars false

namespace BT
open BT.Spec

namespace Prog
variable {K S α β ι : Type}

/-- Every run of the program whose evaluations return values allowed by `V` evaluates only vectors
satisfying `Q`, and ends with an exception satisfying `E` or a result satisfying `Z`. -/
def Sat (Q : RawVec K → Prop) (V : RawVec K → S → Prop) (E : Err → Prop) (Z : α → Prop) :
    Prog K S α → Prop
  | ret a => Z a
  | raise e => E e
  | eval r k => Q r ∧ ∀ v, V r v → (k v).Sat Q V E Z

variable {Q : RawVec K → Prop} {V : RawVec K → S → Prop} {E : Err → Prop}

theorem sat_bind {Z : α → Prop} {W : β → Prop} {p : Prog K S α} {f : α → Prog K S β}
    (hp : p.Sat Q V E Z) (hf : ∀ a, Z a → (f a).Sat Q V E W) : (p.bind f).Sat Q V E W := by
  induction p with
  | ret a => exact hf a hp
  | raise e => exact hp
  | eval r k ih => exact ⟨hp.1, fun v hv => ih v (hp.2 v hv)⟩

theorem sat_mono {Z W : α → Prop} {p : Prog K S α} (hp : p.Sat Q V E Z) (h : ∀ a, Z a → W a) :
    p.Sat Q V E W := by
  induction p with
  | ret a => exact h a hp
  | raise e => exact hp
  | eval r k ih => exact ⟨hp.1, fun v hv => ih v (hp.2 v hv)⟩

theorem sat_loop {f : α → ι → Prog K S α} {l : List ι} {I : α → Prop}
    (hf : ∀ a, I a → ∀ x ∈ l, (f a x).Sat Q V E I) {a : α} (ha : I a) : (loop f l a).Sat Q V E I := by
  induction l generalizing a with
  | nil => exact ha
  | cons x l ih =>
    exact sat_bind (hf a ha x (by simp)) fun b hb => ih (fun c hc y hy => hf c hc y (by simp [hy])) hb

/-- `p` runs like `p'` as long as it does not run out of fuel. -/
def Le : Prog K S α → Prog K S α → Prop
  | ret a, p' => p' = ret a
  | raise e, p' => e = .noTermination ∨ p' = raise e
  | eval r k, p' => ∃ k', p' = eval r k' ∧ ∀ v, (k v).Le (k' v)

theorem le_refl (p : Prog K S α) : p.Le p := by
  induction p with
  | ret a => rfl
  | raise e => exact .inr rfl
  | eval r k ih => exact ⟨k, rfl, ih⟩

theorem le_bind {p p' : Prog K S α} {f f' : α → Prog K S β} (hp : p.Le p') (hf : ∀ a, (f a).Le (f' a)) :
    (p.bind f).Le (p'.bind f') := by
  induction p generalizing p' with
  | ret a =>
    rw [show p' = ret a from hp]
    exact hf a
  | raise e =>
    rcases hp with hp | hp
    · exact .inl hp
    · rw [hp]; exact .inr rfl
  | eval r k ih =>
    obtain ⟨k', rfl, hk⟩ := hp
    exact ⟨_, rfl, fun v => ih v (hk v)⟩

theorem le_loop {f f' : α → ι → Prog K S α} (l : List ι) (hf : ∀ a x, (f a x).Le (f' a x)) (a : α) :
    (loop f l a).Le (loop f' l a) := by
  induction l generalizing a with
  | nil => rfl
  | cons x l ih => exact le_bind (hf a x) ih

theorem le_trans {p p' p'' : Prog K S α} (h : p.Le p') (h' : p'.Le p'') : p.Le p'' := by
  induction p generalizing p' p'' with
  | ret a =>
    rw [show p' = ret a from h] at h'
    exact h'
  | raise e =>
    rcases h with h | h
    · exact .inl h
    · rw [h] at h'; exact h'
  | eval r k ih =>
    obtain ⟨k', rfl, hk⟩ := h
    obtain ⟨k'', rfl, hk'⟩ := h'
    exact ⟨k'', rfl, fun v => ih v (hk v) (hk' v)⟩

/-- Monotone families. -/
theorem le_of_succ {p : Nat → Prog K S α} (h : ∀ n, (p n).Le (p (n + 1))) {m n : Nat} (hmn : m ≤ n) :
    (p m).Le (p n) := by
  induction hmn with
  | refl => exact le_refl _
  | step _ ih => exact le_trans ih (h _)

end Prog

section run
variable {K P S O α : Type} [Field K] [LinearOrder K] [LinearOrder S] [Neg S]
variable (A : HArith K) (T : Target K P S O) (q : HProb K P S)

/-- Running a program on the optimization function. -/
def Prog.run : Prog K S α → HState S K → Except Err (HState S K × α)
  | .ret a, st => .ok (st, a)
  | .raise e, _ => .error e
  | .eval r k, st =>
    match hCompute A T q st r with
    | .error e => .error e
    | .ok (st', v) => (k v).run st'

/-- The values `compute` can return for a vector. -/
def Returns (r : RawVec K) (v : S) : Prop := ∃ st st', hCompute A T q st r = .ok (st', v)

variable {A T q}

theorem Prog.run_sat {Q : RawVec K → Prop} {E : Err → Prop} {Z : α → Prop} {p : Prog K S α}
    (hp : p.Sat Q (Returns A T q) E Z) (hQ : ∀ r, Q r → ∀ st, ∃ x, hCompute A T q st r = .ok x)
    (st : HState S K) :
    (∃ st' a, p.run A T q st = .ok (st', a) ∧ Z a) ∨ ∃ e, p.run A T q st = .error e ∧ E e := by
  induction p generalizing st with
  | ret a => exact .inl ⟨st, a, rfl, hp⟩
  | raise e => exact .inr ⟨e, rfl, hp⟩
  | eval r k ih =>
    obtain ⟨⟨st', v⟩, hx⟩ := hQ r hp.1 st
    have := ih v (hp.2 v ⟨st, st', hx⟩) st'
    simpa only [Prog.run, hx] using this

theorem Prog.run_le {p p' : Prog K S α} (h : p.Le p') (st : HState S K)
    (hne : p.run A T q st ≠ .error .noTermination) : p'.run A T q st = p.run A T q st := by
  induction p generalizing p' st with
  | ret a =>
    rw [show p' = .ret a from h]
  | raise e =>
    rcases h with h | h
    · rw [h] at hne; exact absurd rfl hne
    · rw [h]
  | eval r k ih =>
    obtain ⟨k', rfl, hk⟩ := h
    simp only [Prog.run] at hne ⊢
    cases hc : hCompute A T q st r with
    | error e => rfl
    | ok x =>
      simp only [hc] at hne
      exact ih x.2 (hk x.2) x.1 hne

theorem hSolve_prog_aux (p : Prog K S α) (st : HState S K)
    (hne : p.run A T q st ≠ .error .noTermination) :
    ∃ B, ∀ p', p.Le p' → ∀ (p0 : Prog K S α) (hist : List (RawVec K × S)),
      (∀ vs, p0.resume (hist.reverse.map Prod.snd ++ vs) = p'.resume vs) → ∀ b, B ≤ b →
      hSolve A T q p0.strategy b hist st = (p.run A T q st).map Prod.fst := by
  induction p generalizing st with
  | ret a =>
    refine ⟨1, fun p' hle p0 hist hp b hb => ?_⟩
    obtain ⟨b, rfl⟩ : ∃ b', b = b' + 1 := ⟨b - 1, by omega⟩
    rw [show p' = .ret a from hle] at hp
    have := hp []
    rw [List.append_nil] at this
    unfold hSolve
    simp only [Prog.strategy, this, Prog.resume]
    rfl
  | raise e =>
    refine ⟨1, fun p' hle p0 hist hp b hb => ?_⟩
    obtain ⟨b, rfl⟩ : ∃ b', b = b' + 1 := ⟨b - 1, by omega⟩
    have hp' : p' = .raise e := by
      rcases hle with hle | hle
      · rw [hle] at hne; exact absurd rfl hne
      · exact hle
    have := hp []
    rw [List.append_nil, hp'] at this
    unfold hSolve
    simp only [Prog.strategy, this, Prog.resume]
    rfl
  | eval r k ih =>
    cases hc : hCompute A T q st r with
    | error e =>
      refine ⟨1, fun p' hle p0 hist hp b hb => ?_⟩
      obtain ⟨k', rfl, hk⟩ := hle
      have h0 := hp []
      rw [List.append_nil] at h0
      obtain ⟨b, rfl⟩ : ∃ b', b = b' + 1 := ⟨b - 1, by omega⟩
      unfold hSolve
      simp only [Prog.strategy, h0, Prog.resume, hc, Prog.run]
      rfl
    | ok x =>
      simp only [Prog.run, hc] at hne
      obtain ⟨B, hB⟩ := ih x.2 x.1 hne
      refine ⟨B + 1, fun p' hle p0 hist hp b hb => ?_⟩
      obtain ⟨k', rfl, hk⟩ := hle
      have h0 := hp []
      rw [List.append_nil] at h0
      obtain ⟨b, rfl⟩ : ∃ b', b = b' + 1 := ⟨b - 1, by omega⟩
      unfold hSolve
      have hs : p0.strategy hist = .eval r := h0
      rw [hs]
      simp only [hc, Prog.run]
      exact hB (k' x.2) (hk x.2) p0 ((r, x.2) :: hist) (fun vs => by
        rw [List.reverse_cons, List.map_append, List.append_assoc]
        exact hp (x.2 :: vs)) b (by omega)

/-- `hSolve` with enough interactions runs the program. -/
theorem hSolve_prog (p : Prog K S α) (st : HState S K)
    (hne : p.run A T q st ≠ .error .noTermination) :
    ∃ B, ∀ b, B ≤ b → hSolve A T q p.strategy b [] st = (p.run A T q st).map Prod.fst := by
  obtain ⟨B, hB⟩ := hSolve_prog_aux p st hne
  exact ⟨B, hB p (Prog.le_refl p) p [] (fun vs => by simp)⟩

/-- A family of programs, monotone in the fuel, one of which ends properly: from some fuel and budget on,
`hSolve` always returns the same result. -/
theorem hSolve_family {p : Nat → Prog K S α} (hmono : ∀ n, (p n).Le (p (n + 1))) (st : HState S K) (F : Nat)
    {st' : HState S K} {a : α} (h : (p F).run A T q st = .ok (st', a)) :
    ∃ B, ∀ b, B ≤ b → hSolve A T q (p b).strategy b [] st = .ok st' := by
  obtain ⟨B, hB⟩ := hSolve_prog_aux (A := A) (T := T) (q := q) (p F) st (by rw [h]; intro hh; cases hh)
  refine ⟨max B F, fun b hb => ?_⟩
  rw [hB (p b) (Prog.le_of_succ hmono (by omega)) (p b) [] (fun vs => by simp) b (by omega), h]
  rfl

end run

end BT
