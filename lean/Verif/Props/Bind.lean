import Verif.Props.Ctor
import Mathlib.Data.List.Nodup

/-!
# C58: which calls of the constructors are accepted, and what they bind
-/

namespace BT
namespace Spec

/-- The documented parameters of the four classes with their default values. -/
def params (A : Type) (c : Cls) : List (String × CVal A) :=
  [("partition_prior", .float (99 / 100)), ("prior", .none),
    ("delta", if c = .hyperClassification then .none else .int 0), ("prune", .bool false)] ++
  (if c = .hyperClassification ∨ c = .hyperRegression then [("optimizer", .none)] else []) ++
  [("split_precision", .float 0), ("level", .int 0)]

end Spec

variable {A : Type}

theorem ctorSig_eq (c : Cls) : ctorSig (A := A) c = (Spec.params A c).map fun p => (p.1, some p.2) := by
  cases c <;> rfl

theorem bindFrom_defaults (args : List (CVal A)) (kw : Dict A) (i : Nat) (ps : List (String × CVal A)) :
    bindFrom args kw i (ps.map fun p => (p.1, some p.2)) =
      .ok (ps.mapIdx fun j p => (p.1, (args[i + j]?).getD ((kw.lookup p.1).getD p.2))) := by
  induction ps generalizing i with
  | nil => rfl
  | cons p ps ih =>
    have h1 : bindOne args kw i (p.1, some p.2) =
        .ok (p.1, (args[i]?).getD ((kw.lookup p.1).getD p.2)) := by
      unfold bindOne
      dsimp only
      cases args[i]? with
      | some v => rfl
      | none =>
        cases kw.lookup p.1 with
        | some v => rfl
        | none => rfl
    rw [List.map_cons, bindFrom, h1]
    dsimp only
    rw [ih (i + 1)]
    dsimp only
    rw [List.mapIdx_cons]
    congr 3
    funext j q
    rw [Nat.add_assoc, Nat.add_comm 1 j]

theorem params_nodup (c : Cls) : ((Spec.params A c).map Prod.fst).Nodup := by
  cases c <;> simp [Spec.params]

open Classical in
theorem bindArgs_defaults (args : List (CVal A)) (kw : Dict A) (ps : List (String × CVal A))
    (hn : (ps.map Prod.fst).Nodup) :
    bindArgs (ps.map fun p => (p.1, some p.2)) args kw =
      if args.length ≤ ps.length ∧ ∀ k ∈ kw, ∃ i p, ps[i]? = some p ∧ p.1 = k.1 ∧ args.length ≤ i then
        .ok (ps.mapIdx fun i p => (p.1, (args[i]?).getD ((kw.lookup p.1).getD p.2)))
      else .error .typeError := by
  unfold bindArgs
  simp only [List.length_map]
  by_cases h1 : args.length > ps.length
  · rw [if_pos h1, if_neg (fun h => absurd h.1 (by omega))]
  rw [if_neg h1]
  split
  · next h2 =>
    rw [if_neg]
    rintro ⟨-, h⟩
    obtain ⟨k, hk, hc⟩ := List.any_eq_true.1 h2
    obtain ⟨i, p, hp, hpk, -⟩ := h k hk
    refine absurd hc ?_
    have : k.1 ∈ (ps.map fun p => (p.1, some p.2)).map Prod.fst := by
      rw [List.map_map, ← hpk]
      exact List.mem_map.2 ⟨p, List.mem_of_getElem? hp, rfl⟩
    rw [List.contains_iff_mem.2 this]
    decide
  next h2 =>
  split
  · next h3 =>
    rw [if_neg]
    rintro ⟨-, h⟩
    obtain ⟨k, hk, hc⟩ := List.any_eq_true.1 h3
    obtain ⟨i, p, hp, hpk, hi⟩ := h k hk
    rw [List.contains_iff_mem, List.mem_map] at hc
    obtain ⟨q, hq, hqk⟩ := hc
    obtain ⟨j, hj, hjq⟩ := List.mem_take_iff_getElem.1 hq
    rw [List.getElem_map] at hjq
    rw [List.length_map] at hj
    obtain ⟨hi', hp'⟩ := List.getElem?_eq_some_iff.1 hp
    have hj' : j < ps.length := by omega
    have e : (ps.map Prod.fst)[i]'(by simpa using hi') = (ps.map Prod.fst)[j]'(by simpa using hj') := by
      rw [List.getElem_map, List.getElem_map, hp', hpk, ← hqk, ← hjq]
    have := (List.Nodup.getElem_inj_iff hn).1 e
    omega
  next h3 =>
  rw [if_pos, bindFrom_defaults]
  · simp
  · refine ⟨by omega, fun k hk => ?_⟩
    have m1 : k.1 ∈ (ps.map fun p => (p.1, some p.2)).map Prod.fst := by
      by_contra hno
      exact h2 (List.any_eq_true.2 ⟨k, hk, by simpa [List.contains_iff_mem] using hno⟩)
    rw [List.map_map] at m1
    obtain ⟨p, hp, hpk⟩ := List.mem_map.1 m1
    obtain ⟨i, hi, hip⟩ := List.getElem_of_mem hp
    refine ⟨i, p, by rw [List.getElem?_eq_getElem hi, hip], hpk, ?_⟩
    by_contra hlt
    refine h3 (List.any_eq_true.2 ⟨k, hk, ?_⟩)
    rw [List.contains_iff_mem, List.mem_map]
    refine ⟨(p.1, some p.2), List.mem_take_iff_getElem.2 ⟨i, by rw [List.length_map]; omega, ?_⟩, hpk⟩
    rw [List.getElem_map, hip]

/-- A call of a constructor is accepted iff there are at most as many positional arguments as parameters and each keyword
is the name of a parameter not given by position; every other call raises `TypeError`.  The parameters of the new object
are then the positional arguments, the keyword arguments and the default values, in this order of precedence. -/
theorem C58_bind (c : Cls) (args : List (CVal A)) (kw : Dict A) :
    let accepted := args.length ≤ (Spec.params A c).length ∧ ∀ k ∈ kw, ∃ i p, (Spec.params A c)[i]? = some p ∧
      p.1 = k.1 ∧ args.length ≤ i
    (accepted → ∃ self, construct c args kw = .ok self ∧ getParams c self =
      .ok ((Spec.params A c).mapIdx fun i p => (p.1, (args[i]?).getD ((kw.lookup p.1).getD p.2)))) ∧
    (¬ accepted → construct c args kw = .error .typeError) := by
  intro accepted
  have key := bindArgs_defaults args kw _ (params_nodup c)
  rw [← ctorSig_eq] at key
  constructor
  · intro h
    rw [if_pos h] at key
    obtain ⟨self, h1, h2, -⟩ := C58_get c args kw _ key
    exact ⟨self, h1, h2⟩
  · intro h
    rw [if_neg h] at key
    unfold construct
    rw [key]

/-- An accepted call with a positional and a keyword argument, and one with an argument too many. -/
example : (∃ self, construct (A := Unit) .perpRegression [.float (1 / 2)] [("prune", .bool true)] = .ok self ∧
      getParams .perpRegression self = .ok [("partition_prior", .float (1 / 2)), ("prior", .none), ("delta", .int 0),
        ("prune", .bool true), ("split_precision", .float 0), ("level", .int 0)]) ∧
    construct (A := Unit) .perpRegression (List.replicate 7 .none) [] = .error .typeError := by
  refine ⟨?_, (C58_bind _ _ _).2 ?_⟩
  · refine (C58_bind (A := Unit) .perpRegression [.float (1 / 2)] [("prune", .bool true)]).1 ⟨by decide, ?_⟩
    intro k hk
    rw [List.mem_singleton] at hk
    subst hk
    exact ⟨3, ("prune", .bool false), rfl, rfl, by decide⟩
  · exact fun h => absurd h.1 (by decide)

end BT
