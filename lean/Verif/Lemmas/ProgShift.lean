import Verif.Model.Optimize
import Mathlib.Order.Monotone.Basic
import Mathlib.Tactic.Ring

/-!
# Optimizers whose objective is moved by a monotone map

Two programs that see values related by `g` and take the same steps.
-/

namespace BT

set_option linter.unusedSectionVars false

section
variable {K S S' α α' β β' : Type}

/-- Same vectors; every returned value of the second program is `g` of that of the first. -/
inductive Prog.Rel (g : S → S') (R : α → α' → Prop) : Prog K S α → Prog K S' α' → Prop
  | ret {a : α} {a' : α'} (h : R a a') : Prog.Rel g R (.ret a) (.ret a')
  | raise (e : Err) : Prog.Rel g R (.raise e) (.raise e)
  | eval (r : RawVec K) {k : S → Prog K S α} {k' : S' → Prog K S' α'} (h : ∀ v, Prog.Rel g R (k v) (k' (g v))) :
      Prog.Rel g R (.eval r k) (.eval r k')

variable {g : S → S'} {R : α → α' → Prop} {Q : β → β' → Prop}

theorem Prog.Rel.resume {p : Prog K S α} {p' : Prog K S' α'} (h : Prog.Rel g R p p') (vs : List S) :
    p'.resume (vs.map g) = p.resume vs := by
  induction h generalizing vs with
  | ret h => rfl
  | raise e => rfl
  | eval r h ih =>
    cases vs with
    | nil => rfl
    | cons v vs => exact ih v vs

theorem Prog.Rel.bind {p : Prog K S α} {p' : Prog K S' α'} (h : Prog.Rel g R p p') {f : α → Prog K S β}
    {f' : α' → Prog K S' β'} (hf : ∀ a a', R a a' → Prog.Rel g Q (f a) (f' a')) :
    Prog.Rel g Q (p.bind f) (p'.bind f') := by
  induction h with
  | ret h => exact hf _ _ h
  | raise e => exact .raise e
  | eval r h ih => exact .eval r ih

theorem Prog.Rel.loop {ι : Type} {f : α → ι → Prog K S α} {f' : α' → ι → Prog K S' α'}
    (hf : ∀ a a' x, R a a' → Prog.Rel g R (f a x) (f' a' x)) (l : List ι) {a : α} {a' : α'} (h : R a a') :
    Prog.Rel g R (Prog.loop f l a) (Prog.loop f' l a') := by
  induction l generalizing a a' with
  | nil => exact .ret h
  | cons x xs ih => exact (hf a a' x h).bind fun b b' hb => ih hb

theorem Prog.Rel.strategy {p : Prog K S α} {p' : Prog K S' α'} (h : Prog.Rel g R p p')
    (hist : List (RawVec K × S)) (hist' : List (RawVec K × S')) (hh : hist'.map Prod.snd = (hist.map Prod.snd).map g) :
    p'.strategy hist' = p.strategy hist := by
  unfold Prog.strategy
  rw [← h.resume, List.map_reverse, List.map_reverse, hh, List.map_reverse]

end

section
variable {S S' β : Type} [LinearOrder S] [LinearOrder S'] {g : S → S'}

/-- The dictionary with its keys mapped. -/
def mapKeys (g : S → S') (d : List (S × β)) : List (S' × β) := d.map fun e => (g e.1, e.2)

theorem dictSet_map (hg : StrictMono g) (d : List (S × β)) (v : S) (c : β) :
    dictSet (mapKeys g d) (g v) c = mapKeys g (dictSet d v c) := by
  unfold dictSet mapKeys
  have e : (d.map fun e => (g e.1, e.2)).any (fun e => decide (e.1 = g v)) = d.any fun e => decide (e.1 = v) := by
    rw [List.any_map]
    congr 1
    funext x
    simp [Function.comp, hg.injective.eq_iff]
  rw [e]
  split
  · rw [List.map_map, List.map_map]
    refine List.map_congr_left fun x _ => ?_
    simp only [Function.comp, hg.injective.eq_iff]
    split <;> rfl
  · rw [List.map_append]; rfl

theorem dictGet_map (hg : StrictMono g) (d : List (S × β)) (v : S) :
    dictGet (mapKeys g d) (g v) = dictGet d v := by
  unfold dictGet mapKeys
  rw [List.find?_map, Option.map_map]
  have : ((fun e : S' × β => decide (e.1 = g v)) ∘ fun e : S × β => (g e.1, e.2)) = fun e => decide (e.1 = v) := by
    funext x
    simp [Function.comp, hg.injective.eq_iff]
  rw [this]
  rfl

theorem sortedKeys_map (hg : StrictMono g) (d : List (S × β)) :
    sortedKeys (mapKeys g d) = (sortedKeys d).map g := by
  unfold sortedKeys mapKeys
  rw [List.map_mergeSort (s := fun a b => decide (a ≤ b)), List.map_map, List.map_map]
  · rfl
  · intro a _ b _
    simp [hg.le_iff_le]

theorem dictRestrict_map (hg : StrictMono g) (d : List (S × β)) (vs : List S) :
    dictRestrict (mapKeys g d) (vs.map g) = mapKeys g (dictRestrict d vs) := by
  unfold dictRestrict
  induction vs with
  | nil => rfl
  | cons v vs ih =>
    rw [List.map_cons, List.filterMap_cons, List.filterMap_cons, dictGet_map hg]
    cases dictGet d v with
    | none => exact ih
    | some c => simp only [Option.map_some, ih]; rfl

theorem ltBest_map (hg : StrictMono g) (v : S) (b : Option S) : ltBest (g v) (b.map g) = ltBest v b := by
  cases b with
  | none => rfl
  | some b => simp [ltBest, hg.lt_iff_lt]

theorem keepBest_map (hg : StrictMono g) (d : List (S × β)) (nKeep noImp : Nat) (best : Option S) :
    keepBest (mapKeys g d) nKeep noImp (best.map g) =
      (keepBest d nKeep noImp best).map fun r => (mapKeys g r.1, r.2) := by
  unfold keepBest
  simp only [sortedKeys_map hg, ← List.map_take]
  cases h : (sortedKeys d).take nKeep with
  | nil => rfl
  | cons v vs =>
    simp only [List.map_cons, Except.map, ltBest_map hg]
    rw [← List.map_cons, dictRestrict_map hg]

end

section
variable {K P P' S S' R : Type} [Field K] [LinearOrder K] {g : S → S'}

theorem randomSolve_rel (G : Rng R K) (nMc : Nat) {q : HProb K P S} {q' : HProb K P' S'} (hq : q'.nDim = q.nDim) :
    Prog.Rel g Eq (randomSolve G nMc q) (randomSolve G nMc q') := by
  unfold randomSolve
  rw [hq]
  refine Prog.Rel.loop (fun a a' _ h => ?_) _ rfl
  subst h
  exact .eval _ fun v => .ret rfl

theorem quasiSolve_rel (phi : ℝ) (n : Nat) {q : HProb ℝ P S} {q' : HProb ℝ P' S'} (hq : q'.nDim = q.nDim) :
    Prog.Rel g Eq (quasiSolve phi n q) (quasiSolve phi n q') := by
  unfold quasiSolve
  rw [hq]
  refine Prog.Rel.loop (fun a a' i _ => ?_) _ rfl
  cases r2Next (q.nDim - 1) phi i with
  | error e => exact .raise e
  | ok u => exact .eval _ fun v => .ret rfl

variable [LinearOrder S] [LinearOrder S']

/-- The loop variables of the corresponding searches. -/
def ScanRel (g : S → S') (s : List (S × List K) × R) (s' : List (S' × List K) × R) : Prop :=
  s' = (mapKeys g s.1, s.2)

theorem scan_rel (hg : StrictMono g) (G : Rng R K) (n : Nat) {q : HProb K P S} {q' : HProb K P' S'}
    (hq : q'.nDim = q.nDim) (r : R) : Prog.Rel g (ScanRel g) (scan G n q r) (scan G n q' r) := by
  unfold scan
  rw [hq]
  refine Prog.Rel.loop (fun a a' _ h => ?_) _ rfl
  cases h
  dsimp only
  split
  · exact .raise _
  · exact .eval _ fun v => .ret (by unfold ScanRel; rw [dictSet_map hg])

theorem saEvolve_rel (hg : StrictMono g) (G : Rng R K) (nKeep : Nat) (f : K) {q : HProb K P S} {q' : HProb K P' S'}
    (hq : q'.nDim = q.nDim) (sorted : List S) (s : List (S × List K) × R) (s' : List (S' × List K) × R) (i : Nat)
    (h : ScanRel g s s') :
    Prog.Rel g (ScanRel g) (saEvolve G nKeep f q sorted s i) (saEvolve G nKeep f q' (sorted.map g) s' i) := by
  cases h
  unfold saEvolve
  rw [List.length_map, List.getElem?_map, hq]
  cases sorted[i * sorted.length / nKeep]? with
  | none => exact .raise _
  | some v =>
    simp only [Option.map_some, dictGet_map hg]
    cases dictGet s.1 v with
    | none => exact .raise _
    | some cand => exact .eval _ fun v => .ret (by unfold ScanRel; rw [dictSet_map hg])

def SARel (g : S → S') (s : SAState S K R) (s' : SAState S' K R) : Prop :=
  s' = ⟨mapKeys g s.cands, s.noImp, s.best.map g, s.f, s.g⟩

theorem saRound_rel (hg : StrictMono g) (G : Rng R K) (nScan nKeep : Nat) (spread : K) {q : HProb K P S}
    {q' : HProb K P' S'} (hq : q'.nDim = q.nDim) (s : SAState S K R) (s' : SAState S' K R) (h : SARel g s s') :
    Prog.Rel g (SARel g) (saRound G nScan nKeep spread q s) (saRound G nScan nKeep spread q' s') := by
  cases h
  unfold saRound
  have hl : (mapKeys g s.cands).length = s.cands.length := List.length_map _
  simp only [hl]
  split
  · refine (scan_rel hg G nScan hq s.g).bind fun u u' hu => ?_
    cases hu
    simp only [keepBest_map hg]
    cases keepBest u.1 nKeep s.noImp s.best with
    | error e => exact .raise e
    | ok r => exact .ret rfl
  · simp only [sortedKeys_map hg, List.getElem?_map]
    cases (sortedKeys s.cands)[0]? with
    | none => exact .raise _
    | some b =>
      simp only [Option.map_some]
      refine (Prog.Rel.loop (fun a a' x hx => saEvolve_rel hg G nKeep s.f hq _ a a' x hx) _ rfl).bind
        fun u u' hu => ?_
      cases hu
      have := keepBest_map hg u.1 nKeep s.noImp (some b)
      simp only [Option.map_some] at this
      simp only [this]
      cases keepBest u.1 nKeep s.noImp (some b) with
      | error e => exact .raise e
      | ok r => exact .ret rfl

theorem saSolve_rel (hg : StrictMono g) (G : Rng R K) (nScan nKeep : Nat) (spread : K) (fuel : Nat)
    {q : HProb K P S} {q' : HProb K P' S'} (hq : q'.nDim = q.nDim) :
    Prog.Rel g (SARel g) (saSolve G nScan nKeep spread fuel q) (saSolve G nScan nKeep spread fuel q') := by
  unfold saSolve
  have : ∀ (fuel : Nat) (s : SAState S K R) (s' : SAState S' K R), SARel g s s' →
      Prog.Rel g (SARel g) (saLoop G nScan nKeep spread q fuel s) (saLoop G nScan nKeep spread q' fuel s') := by
    intro fuel
    induction fuel with
    | zero => intro s s' _; exact .raise _
    | succ fuel ih =>
      intro s s' h
      have hn : s'.noImp = s.noImp := by cases h; rfl
      unfold saLoop
      rw [hn]
      split
      · exact (saRound_rel hg G nScan nKeep spread hq s s' h).bind ih
      · exact .ret h
  exact this fuel _ _ rfl

end

/-! ## Gradient descent: values moved by a constant -/

section
variable {K P P' R : Type} [Field K] [LinearOrder K] [IsStrictOrderedRing K] (c : K)

theorem shift_mono : StrictMono (fun v : K => v + c) := fun _ _ h => by simpa using h

theorem gdQuotients_rel (candidate : List K) (value : K) (is : List Nat) (delta : K) (grad : List K) :
    Prog.Rel (· + c) Eq (gdQuotients candidate value is delta grad)
      (gdQuotients candidate (value + c) is delta grad) := by
  induction is generalizing delta grad with
  | nil => exact .ret rfl
  | cons i is ih =>
    unfold gdQuotients
    cases candidate[i]? with
    | none => exact .raise _
    | some x =>
      refine .eval _ fun v => ?_
      simp only [add_sub_add_right_eq_sub]
      split <;> split <;> first | exact .ret rfl | exact ih _ _

theorem gdGradient_rel {q : HProb K P K} {q' : HProb K P' K} (hq : q'.nDim = q.nDim) (candidate : List K)
    (value : K) (fuel : Nat) (delta : K) :
    Prog.Rel (· + c) Eq (gdGradient q candidate value fuel delta) (gdGradient q' candidate (value + c) fuel delta) := by
  induction fuel generalizing delta with
  | zero => exact .raise _
  | succ fuel ih =>
    unfold gdGradient
    rw [hq]
    refine (gdQuotients_rel c candidate value _ delta []).bind fun r r' hr => ?_
    subst hr
    cases r.1 with
    | some grad => exact .ret rfl
    | none =>
      dsimp only
      split
      · exact .ret rfl
      · exact ih _

theorem gdDescend_rel (candidate grad : List K) (fuel : Nat) (lambda : K) (bestVec : List K) (bestValue : K) :
    Prog.Rel (· + c) (fun b b' => b' = (b.1, b.2 + c)) (gdDescend candidate grad fuel lambda bestVec bestValue)
      (gdDescend candidate grad fuel lambda bestVec (bestValue + c)) := by
  induction fuel generalizing lambda bestVec bestValue with
  | zero => exact .raise _
  | succ fuel ih =>
    unfold gdDescend
    refine .eval _ fun v => ?_
    simp only [add_lt_add_iff_right]
    split
    · exact ih _ _ _
    · exact .ret rfl

theorem gdCandidate_rel (fuel nKeep : Nat) {q : HProb K P K} {q' : HProb K P' K} (hq : q'.nDim = q.nDim)
    (sorted : List K) (s s' : List (K × List K) × K) (i : Nat) (h : ScanRel (· + c) s s') :
    Prog.Rel (· + c) (ScanRel (· + c)) (gdCandidate fuel nKeep q sorted s i)
      (gdCandidate fuel nKeep q' (sorted.map (· + c)) s' i) := by
  cases h
  unfold gdCandidate
  rw [List.length_map, List.getElem?_map]
  cases sorted[i * sorted.length / nKeep]? with
  | none => exact .raise _
  | some v =>
    simp only [Option.map_some, dictGet_map (shift_mono c)]
    cases dictGet s.1 v with
    | none => exact .raise _
    | some cand =>
      refine (gdGradient_rel c hq cand v fuel s.2).bind fun r r' hr => ?_
      subst hr
      rcases r with - | ⟨grad, delta⟩
      · exact .ret rfl
      · refine (gdDescend_rel c cand grad fuel _ cand v).bind fun b b' hb => ?_
        subst hb
        exact .ret (by unfold ScanRel; rw [dictSet_map (shift_mono c)])

def GDRel (s s' : GDState K R) : Prop :=
  s' = ⟨mapKeys (· + c) s.cands, s.noImp, s.best.map (· + c), s.startDelta, s.g⟩

theorem gdRound_rel (G : Rng R K) (fuel nInit nKeep : Nat) {q : HProb K P K} {q' : HProb K P' K}
    (hq : q'.nDim = q.nDim) (s s' : GDState K R) (h : GDRel c s s') :
    Prog.Rel (· + c) (GDRel c) (gdRound G fuel nInit nKeep q s) (gdRound G fuel nInit nKeep q' s') := by
  cases h
  unfold gdRound
  have hl : (mapKeys (· + c) s.cands).length = s.cands.length := List.length_map _
  have hg := shift_mono c
  simp only [hl]
  split
  · refine (scan_rel hg G nInit hq s.g).bind fun u u' hu => ?_
    cases hu
    simp only [keepBest_map hg]
    cases keepBest u.1 nKeep s.noImp s.best with
    | error e => exact .raise e
    | ok r => exact .ret rfl
  · simp only [sortedKeys_map hg, List.getElem?_map]
    cases (sortedKeys s.cands)[0]? with
    | none => exact .raise _
    | some b =>
      simp only [Option.map_some]
      refine (Prog.Rel.loop (fun a a' x hx => gdCandidate_rel c fuel nKeep hq _ a a' x hx) _ rfl).bind
        fun u u' hu => ?_
      cases hu
      have := keepBest_map hg u.1 nKeep s.noImp (some b)
      simp only [Option.map_some] at this
      simp only [this]
      cases keepBest u.1 nKeep s.noImp (some b) with
      | error e => exact .raise e
      | ok r => exact .ret rfl

theorem gdSolve_rel (G : Rng R K) (nInit nKeep fuel : Nat) {q : HProb K P K} {q' : HProb K P' K}
    (hq : q'.nDim = q.nDim) :
    Prog.Rel (· + c) (GDRel c) (gdSolve G nInit nKeep fuel q) (gdSolve G nInit nKeep fuel q') := by
  unfold gdSolve
  have : ∀ (m : Nat) (s s' : GDState K R), GDRel c s s' →
      Prog.Rel (· + c) (GDRel c) (gdLoop G fuel nInit nKeep q m s) (gdLoop G fuel nInit nKeep q' m s') := by
    intro m
    induction m with
    | zero => intro s s' _; exact .raise _
    | succ m ih =>
      intro s s' h
      have hn : s'.noImp = s.noImp := by cases h; rfl
      unfold gdLoop
      rw [hn]
      split
      · exact (gdRound_rel c G fuel nInit nKeep hq s s' h).bind ih
      · exact .ret h
  exact this fuel _ _ rfl

end

end BT
