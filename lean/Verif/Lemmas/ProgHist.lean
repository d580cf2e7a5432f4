import Verif.Lemmas.Optimize

/-!
# Reasoning about optimizer programs with the list of vectors already evaluated
-/

set_option linter.unusedSectionVars false

namespace BT
open BT.Spec

namespace Prog
variable {K S α β : Type}

/-- Every run of the program started after the evaluations `h` (oldest first) evaluates only vectors
satisfying `Q` for the evaluations before; if it ends without an exception, `Z` holds of all evaluations
and the result. -/
def SatH (Q : List (RawVec K) → RawVec K → Prop) (Z : List (RawVec K) → α → Prop) :
    Prog K S α → List (RawVec K) → Prop
  | ret a, h => Z h a
  | raise _, _ => True
  | eval r k, h => Q h r ∧ ∀ v, (k v).SatH Q Z (h ++ [r])

variable {Q : List (RawVec K) → RawVec K → Prop}

theorem satH_bind {Z : List (RawVec K) → α → Prop} {W : List (RawVec K) → β → Prop} {p : Prog K S α}
    {f : α → Prog K S β} {h : List (RawVec K)} (hp : p.SatH Q Z h)
    (hf : ∀ h' a, Z h' a → (f a).SatH Q W h') : (p.bind f).SatH Q W h := by
  induction p generalizing h with
  | ret a => exact hf h a hp
  | raise e => trivial
  | eval r k ih => exact ⟨hp.1, fun v => ih v (hp.2 v)⟩

theorem satH_loop_range {f : α → Nat → Prog K S α} {n : Nat} {I : Nat → List (RawVec K) → α → Prop}
    (hf : ∀ i < n, ∀ h a, I i h a → (f a i).SatH Q (I (i + 1)) h) {h : List (RawVec K)} {a : α}
    (ha : I 0 h a) : (loop f (List.range n) a).SatH Q (I n) h := by
  have key : ∀ m j, j + m = n → ∀ h a, I j h a → (loop f (List.range' j m) a).SatH Q (I n) h := by
    intro m
    induction m with
    | zero =>
      intro j hj h a ha
      rw [show j = n by omega] at ha
      exact ha
    | succ m ih =>
      intro j hj h a ha
      rw [List.range'_succ]
      exact satH_bind (hf j (by omega) h a ha) fun h' b hb => ih (j + 1) (by omega) h' b hb
  rw [List.range_eq_range']
  exact key n 0 (by omega) h a ha

theorem satH_resume {Z : List (RawVec K) → α → Prop} {p : Prog K S α} {h : List (RawVec K)}
    (hp : p.SatH Q Z h) (vals : List S) {r : RawVec K} (hr : p.resume vals = .eval r) :
    ∃ rs : List (RawVec K), rs.length = vals.length ∧
      (∀ j (hj : j < rs.length), p.resume (vals.take j) = .eval rs[j]) ∧ Q (h ++ rs) r := by
  induction p generalizing h vals with
  | ret a => cases vals <;> cases hr
  | raise e => cases vals <;> cases hr
  | eval r0 k ih =>
    cases vals with
    | nil =>
      injection hr with hr
      subst hr
      exact ⟨[], rfl, fun j hj => absurd hj (by simp), by rw [List.append_nil]; exact hp.1⟩
    | cons v vals =>
      obtain ⟨rs, h1, h2, h3⟩ := ih v (hp.2 v) vals hr
      refine ⟨r0 :: rs, by simp [h1], ?_, by rw [List.append_assoc] at h3; exact h3⟩
      intro j hj
      cases j with
      | zero => rfl
      | succ j => exact h2 j (by simpa using hj)

end Prog
end BT
