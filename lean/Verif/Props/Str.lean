import Verif.Spec.Str
import Verif.Lemmas.Object
import Verif.Lemmas.Walk
import Verif.Lemmas.Sample

/-!
# C57: the printed tree
-/

namespace BT
open Spec

section
variable {A Sp S K P : Type} {view : A → Option Sp} {erased : A} {attr : Sp → A}

/-- The lines as the code produces them. -/
def strLines (f : Fmt Sp P) : Node Sp S K P → List String → Option (Sp × Bool) → List String
  | .leaf i, anchor, parent =>
    [strHead f anchor parent ++ describe f (.leaf i : Node Sp S K P)]
  | .split i sp l b c1 c2, anchor, parent =>
    (strHead f anchor parent ++ describe f (.split i sp l b c1 c2)) ::
    (strLines f c1 (childAnchor anchor (parent.map (·.2)) "├") (some (sp, true)) ++
      strLines f c2 (childAnchor anchor (parent.map (·.2)) "└") (some (sp, false)))

theorem strLines_ne (f : Fmt Sp P) (t : Node Sp S K P) (anchor : List String) (parent : Option (Sp × Bool)) :
    strLines f t anchor parent ≠ [] := by
  cases t <;> simp [strLines]

theorem joinLines_cons (l : String) {ls : List String} (h : ls ≠ []) :
    joinLines (l :: ls) = l ++ "\n" ++ joinLines ls := by
  cases ls with
  | nil => exact absurd rfl h
  | cons a as => rfl

theorem joinLines_append {l1 l2 : List String} (h1 : l1 ≠ []) (h2 : l2 ≠ []) :
    joinLines (l1 ++ l2) = joinLines l1 ++ "\n" ++ joinLines l2 := by
  induction l1 with
  | nil => exact absurd rfl h1
  | cons a as ih =>
    cases as with
    | nil => exact joinLines_cons a h2
    | cons b bs =>
      rw [List.cons_append, joinLines_cons a (by simp), ih (by simp), joinLines_cons a (by simp)]
      simp only [String.append_assoc]

theorem strInto_eq (hv : LawfulView view erased attr) (f : Fmt Sp P) (t : Node Sp S K P)
    (anchor : List String) (parent : Option (Sp × Bool)) :
    strInto f view (Obj.ofNode erased attr t) anchor parent = .ok (joinLines (strLines f t anchor parent)) := by
  induction t generalizing anchor parent with
  | leaf i =>
    simp only [Obj.ofNode, strInto, hv.erased, strLines, joinLines, describe, String.append_assoc,
      Option.getD_some]
  | split i sp l b c1 c2 h1 h2 =>
    simp only [Obj.ofNode, strInto, hv.attr, strLines, h1, h2]
    rw [joinLines_cons _ (by simp [strLines_ne]), joinLines_append (strLines_ne _ _ _ _) (strLines_ne _ _ _ _)]
    simp only [describe, String.append_assoc]

/-- The mark an ancestor contributes. -/
def barOf (b : Bool) : String := if b then "  " else "│"

/-- The mark of the node itself. -/
def cornerOf (b : Bool) : String := if b then "└" else "├"

theorem guides_snoc (pre : List Bool) (b : Bool) : guides (pre ++ [b]) = pre.map barOf ++ [cornerOf b] := by
  induction pre with
  | nil => rfl
  | cons a as ih =>
    cases as with
    | nil => rfl
    | cons c cs =>
      rw [List.cons_append, List.cons_append, guides]
      · rw [← List.cons_append, ih]; rfl
      · simp

theorem childAnchor_guides (pre : List Bool) (b : Bool) :
    childAnchor (guides pre) (pre.getLast?.map (!·)) (cornerOf b) = guides (pre ++ [b]) := by
  rw [guides_snoc]
  rcases List.eq_nil_or_concat pre with rfl | ⟨q, c, rfl⟩
  · rfl
  · rw [List.concat_eq_append, guides_snoc]
    unfold childAnchor
    rw [if_neg (by simp), List.dropLast_concat]
    cases c <;> simp [barOf]

/-- The line of the node at `addr` below a node at `pre`. -/
def lineFrom (f : Fmt Sp P) (pre : List Bool) (parent : Option Sp) (t : Node Sp S K P) (addr : List Bool) :
    Option String :=
  match nodeAt t addr with
  | none => none
  | some u =>
    match (pre ++ addr).getLast? with
    | none => some (describe f u)
    | some b =>
      match addr.getLast? with
      | none => parent.map fun sp =>
        String.join ((guides (pre ++ addr)).map (" " ++ ·)) ++ " " ++ f.head sp (!b) ++ ": " ++ describe f u
      | some _ =>
        match nodeAt t addr.dropLast with
        | some (.split _ sp _ _ _ _) =>
          some (String.join ((guides (pre ++ addr)).map (" " ++ ·)) ++ " " ++ f.head sp (!b) ++ ": " ++
            describe f u)
        | _ => none

theorem lineFrom_child (f : Fmt Sp P) (pre : List Bool) (parent : Option Sp) (i : Info K P) (sp : Sp) (l b : S)
    (c1 c2 : Node Sp S K P) (d : Bool) (addr : List Bool) :
    lineFrom f pre parent (.split i sp l b c1 c2) (d :: addr) =
      lineFrom f (pre ++ [d]) (some sp) (if d then c2 else c1) addr := by
  have hn : ∀ (a : List Bool), nodeAt (.split i sp l b c1 c2) (d :: a) = nodeAt (if d then c2 else c1) a := by
    intro a; cases d <;> simp [nodeAt]
  have e : pre ++ d :: addr = pre ++ [d] ++ addr := by simp
  unfold lineFrom
  rw [hn, e]
  cases hu : nodeAt (if d then c2 else c1) addr with
  | none => rfl
  | some u =>
    dsimp only
    rcases List.eq_nil_or_concat addr with rfl | ⟨q, c, rfl⟩
    · simp [nodeAt_nil]
    · rw [List.concat_eq_append]
      have : (d :: (q ++ [c])).dropLast = d :: q := by
        rw [← List.cons_append, List.dropLast_concat]
      rw [this, List.dropLast_concat, hn]
      have e2 : (d :: (q ++ [c])).getLast? = some c := by
        rw [← List.cons_append, List.getLast?_concat]
      rw [e2]
      simp

theorem strHead_eq (f : Fmt Sp P) (pre : List Bool) (parent : Option Sp)
    (h : parent.isSome = pre.getLast?.isSome) (u : Node Sp S K P) :
    some (strHead f (guides pre) (parent.bind fun sp => pre.getLast?.map fun b => (sp, !b)) ++ describe f u) =
      lineFrom f pre parent u [] := by
  unfold lineFrom
  rw [nodeAt_nil, List.append_nil]
  cases hl : pre.getLast? with
  | none =>
    have : parent = none := by
      cases parent with
      | none => rfl
      | some sp => rw [hl] at h; simp at h
    subst this
    simp [strHead]
  | some b =>
    cases parent with
    | none => rw [hl] at h; simp at h
    | some sp => simp [strHead, anchorStr]

theorem strParent_eq (pre : List Bool) (parent : Option Sp) (h : parent.isSome = pre.getLast?.isSome) :
    (parent.bind fun sp => pre.getLast?.map fun b => (sp, !b)).map (·.2) = pre.getLast?.map (!·) := by
  cases hl : pre.getLast? with
  | none => cases parent <;> simp
  | some b =>
    cases parent with
    | none => rw [hl] at h; simp at h
    | some sp => simp

theorem strLines_eq (f : Fmt Sp P) (t : Node Sp S K P) (pre : List Bool) (parent : Option Sp)
    (h : parent.isSome = pre.getLast?.isSome) :
    (strLines f t (guides pre) (parent.bind fun sp => pre.getLast?.map fun b => (sp, !b))).map some =
      (preorder t).map (lineFrom f pre parent t) := by
  induction t generalizing pre parent with
  | leaf i =>
    rw [strLines, preorder]
    simp only [List.map_cons, List.map_nil]
    rw [strHead_eq f pre parent h]
  | split i sp l b c1 c2 h1 h2 =>
    rw [strLines, preorder]
    simp only [List.map_cons, List.map_append, List.map_map]
    rw [strHead_eq f pre parent h]
    congr 1
    rw [strParent_eq pre parent h, show ("├" : String) = cornerOf false from rfl,
      show ("└" : String) = cornerOf true from rfl, childAnchor_guides, childAnchor_guides]
    have a1 := h1 (pre ++ [false]) (some sp) (by simp)
    have a2 := h2 (pre ++ [true]) (some sp) (by simp)
    simp only [List.getLast?_concat, Option.bind_some, Option.map_some, Bool.not_false, Bool.not_true] at a1 a2
    rw [a1, a2]
    congr 1 <;> refine List.map_congr_left fun addr _ => ?_
    · exact (lineFrom_child f pre parent i sp l b c1 c2 false addr).symm
    · exact (lineFrom_child f pre parent i sp l b c1 c2 true addr).symm

theorem lineFrom_root (f : Fmt Sp P) (t : Node Sp S K P) (addr : List Bool) :
    lineFrom f [] none t addr = lineAt f t addr := by
  unfold lineFrom lineAt
  rw [List.nil_append]
  cases nodeAt t addr with
  | none => rfl
  | some u => cases addr.getLast? <;> rfl

/-- C57 (text): the text of a fitted model consists of the lines of its nodes in preorder, joined by
newlines. -/
theorem C57_text (hv : LawfulView view erased attr) (f : Fmt Sp P) (t : Node Sp S K P) :
    ∃ lines : List String, str f view (Obj.ofNode erased attr t) = .ok (joinLines lines) ∧
      lines.map some = (preorder t).map (lineAt f t) := by
  refine ⟨strLines f t [] none, ?_, ?_⟩
  · unfold str
    rw [ofNode_isFitted, if_pos rfl, strInto_eq hv]
  · have := strLines_eq f t [] none rfl
    simp only [Option.bind_none] at this
    rw [show ([] : List String) = guides [] from rfl, this]
    exact List.map_congr_left fun addr _ => lineFrom_root f t addr

theorem preorder_length (t : Node Sp S K P) : (preorder t).length + 1 = 2 * leaves t := by
  induction t with
  | leaf i => rfl
  | split i sp l b c1 c2 h1 h2 =>
    simp only [preorder, List.length_cons, List.length_append, List.length_map, leaves]
    omega

theorem preorder_mem (t : Node Sp S K P) (addr : List Bool) : addr ∈ preorder t ↔ (nodeAt t addr).isSome := by
  induction t generalizing addr with
  | leaf i =>
    cases addr with
    | nil => simp [preorder, nodeAt]
    | cons b bs => simp [preorder, nodeAt]
  | split i sp l b c1 c2 h1 h2 =>
    cases addr with
    | nil => simp [preorder, nodeAt]
    | cons d ds =>
      cases d with
      | false => simp [preorder, nodeAt, h1]
      | true => simp [preorder, nodeAt, h2]

theorem preorder_nodup (t : Node Sp S K P) : (preorder t).Nodup := by
  induction t with
  | leaf i => simp [preorder]
  | split i sp l b c1 c2 h1 h2 =>
    rw [preorder, List.nodup_cons, List.nodup_append]
    refine ⟨by simp, ?_, ?_, ?_⟩
    · exact h1.map (fun a b h => by simpa using h)
    · exact h2.map (fun a b h => by simpa using h)
    · intro a ha b hb
      simp only [List.mem_map] at ha hb
      obtain ⟨_, _, rfl⟩ := ha
      obtain ⟨_, _, rfl⟩ := hb
      simp

/-- Parents are listed before their children and first children (with everything below them) before
second children. -/
theorem preorder_order (t : Node Sp S K P) : (preorder t).Pairwise fun a b =>
    (∃ s, b = a ++ s) ∨ ∃ p s s', a = p ++ false :: s ∧ b = p ++ true :: s' := by
  induction t with
  | leaf i => simp [preorder]
  | split i sp l b c1 c2 h1 h2 =>
    rw [preorder, List.pairwise_cons, List.pairwise_append]
    refine ⟨fun a _ => .inl ⟨a, rfl⟩, ?_, ?_, ?_⟩
    · rw [List.pairwise_map]
      refine h1.imp ?_
      rintro a b (⟨s, rfl⟩ | ⟨p, s, s', rfl, rfl⟩)
      · exact .inl ⟨s, rfl⟩
      · exact .inr ⟨false :: p, s, s', rfl, rfl⟩
    · rw [List.pairwise_map]
      refine h2.imp ?_
      rintro a b (⟨s, rfl⟩ | ⟨p, s, s', rfl, rfl⟩)
      · exact .inl ⟨s, rfl⟩
      · exact .inr ⟨true :: p, s, s', rfl, rfl⟩
    · intro a ha b hb
      simp only [List.mem_map] at ha hb
      obtain ⟨s, _, rfl⟩ := ha
      obtain ⟨s', _, rfl⟩ := hb
      exact .inr ⟨[], s, s', rfl, rfl⟩

/-- Number of newline characters. -/
def newlines (s : String) : Nat := s.toList.count '\n'

theorem newlines_append (a b : String) : newlines (a ++ b) = newlines a + newlines b := by
  simp [newlines, String.toList_append, List.count_append]

theorem newlines_join (ls : List String) (h : ∀ l ∈ ls, newlines l = 0) :
    newlines (joinLines ls) = ls.length - 1 := by
  induction ls with
  | nil => rfl
  | cons a as ih =>
    have ha := h a (by simp)
    cases as with
    | nil => simpa [joinLines] using ha
    | cons b bs =>
      rw [joinLines_cons a (by simp), newlines_append, newlines_append, ih fun l hl => h l (by simp [hl]), ha]
      have : newlines "\n" = 1 := by decide
      rw [this]
      simp
      omega

/-- No formatted piece of the tree contains a newline character. -/
def OneLinePieces (f : Fmt Sp P) : Node Sp S K P → Prop
  | .leaf i => newlines (f.leafValue i.posterior) = 0 ∧
      (f.isRegression = false → newlines (f.leafMean i.posterior) = 0)
  | .split _ sp _ _ c1 c2 => newlines (f.splitDesc sp) = 0 ∧ (∀ b, newlines (f.head sp b) = 0) ∧
      OneLinePieces f c1 ∧ OneLinePieces f c2

theorem newlines_nat (n : Nat) : newlines (toString n) = 0 := by
  unfold newlines
  rw [List.count_eq_zero]
  intro h
  have hd := Nat.isDigit_of_mem_toDigits (b := 10) (by decide) (by decide) (show '\n' ∈ Nat.toDigits 10 n by
    simpa [toString, Nat.repr] using h)
  exact absurd hd (by decide)

theorem newlines_anchorStr (anchor : List String) (h : ∀ a ∈ anchor, newlines a = 0) :
    newlines (anchorStr anchor) = 0 := by
  unfold anchorStr
  induction anchor with
  | nil => rfl
  | cons a as ih =>
    rw [List.map_cons, String.join_cons, newlines_append, newlines_append, h a (by simp),
      ih fun b hb => h b (by simp [hb])]
    decide

theorem newlines_childAnchor (anchor : List String) (h : ∀ a ∈ anchor, newlines a = 0) (il : Option Bool)
    (b : Bool) : ∀ a ∈ childAnchor anchor il (cornerOf b), newlines a = 0 := by
  have hc : newlines (cornerOf b) = 0 := by cases b <;> decide
  intro a ha
  unfold childAnchor at ha
  split at ha
  · rw [List.mem_singleton] at ha; rw [ha]; exact hc
  · rcases List.mem_append.1 ha with ha | ha
    · exact h a (List.dropLast_subset _ ha)
    · simp only [List.mem_cons, List.not_mem_nil, or_false] at ha
      rcases ha with rfl | rfl
      · split <;> decide
      · exact hc

theorem newlines_strHead (f : Fmt Sp P) (anchor : List String) (h : ∀ a ∈ anchor, newlines a = 0)
    (parent : Option (Sp × Bool)) (hp : ∀ q ∈ parent, newlines (f.head q.1 q.2) = 0) :
    newlines (strHead f anchor parent) = 0 := by
  cases parent with
  | none => show newlines "" = 0; decide
  | some q =>
    have e1 : newlines " " = 0 := by decide
    have e2 : newlines ": " = 0 := by decide
    rw [show strHead f anchor (some q) = anchorStr anchor ++ " " ++ f.head q.1 q.2 ++ ": " from rfl]
    simp only [newlines_append, newlines_anchorStr anchor h, hp q rfl, e1, e2]

theorem newlines_strLines (f : Fmt Sp P) (t : Node Sp S K P) (ht : OneLinePieces f t) (anchor : List String)
    (h : ∀ a ∈ anchor, newlines a = 0) (parent : Option (Sp × Bool))
    (hp : ∀ q ∈ parent, newlines (f.head q.1 q.2) = 0) : ∀ l ∈ strLines f t anchor parent, newlines l = 0 := by
  induction t generalizing anchor parent with
  | leaf i =>
    intro l hl
    rw [strLines, List.mem_singleton] at hl
    rw [hl, newlines_append, newlines_strHead f anchor h parent hp]
    have e1 : newlines "y=" = 0 := by decide
    have e2 : newlines ", n=" = 0 := by decide
    have e3 : newlines ", p(y)=" = 0 := by decide
    have e4 : newlines "" = 0 := by decide
    obtain ⟨h1, h2⟩ := ht
    simp only [describe, newlines_append, e1, e2, h1, newlines_nat]
    cases hr : f.isRegression with
    | true => simp [e4]
    | false => simp [newlines_append, e3, h2 hr]
  | split i sp l b c1 c2 h1 h2 =>
    obtain ⟨t1, t2, t3, t4⟩ := ht
    intro l hl
    rw [strLines, List.mem_cons, List.mem_append] at hl
    rcases hl with rfl | hl | hl
    · rw [newlines_append, newlines_strHead f anchor h parent hp]
      simpa [describe] using t1
    · exact h1 t3 _ (newlines_childAnchor anchor h _ false) _ (by rintro q hq; cases hq; exact t2 true) l hl
    · exact h2 t4 _ (newlines_childAnchor anchor h _ true) _ (by rintro q hq; cases hq; exact t2 false) l hl

/-- C57 (partial): if no formatted piece (feature name, number, array) contains a newline, the printed
tree has exactly one line per node, `2 * leaves - 1` in total, in preorder: a parent before its
children, the first child's subtree before the second's (`C57_order`).
Missing: pieces with newlines, for which the claim is false (`C57_refuted`); numpy breaks the text of long
probability vectors into several lines. -/
theorem C57_lines_partial (hv : LawfulView view erased attr) (f : Fmt Sp P) (t : Node Sp S K P)
    (ht : OneLinePieces f t) :
    ∃ lines : List String, str f view (Obj.ofNode erased attr t) = .ok (joinLines lines) ∧
      (∀ l ∈ lines, newlines l = 0) ∧ lines.length = 2 * t.getNLeaves - 1 ∧
      newlines (joinLines lines) + 1 = 2 * t.getNLeaves - 1 ∧
      lines.map some = (preorder t).map (lineAt f t) := by
  have hl := newlines_strLines f t ht [] (by simp) none (by simp)
  have hsome : (strLines f t [] none).map some = (preorder t).map (lineAt f t) := by
    have := strLines_eq f t [] none rfl
    simp only [Option.bind_none] at this
    rw [show ([] : List String) = guides [] from rfl, this]
    exact List.map_congr_left fun addr _ => lineFrom_root f t addr
  have hlen : (strLines f t [] none).length = 2 * t.getNLeaves - 1 := by
    have := congrArg List.length hsome
    simp only [List.length_map] at this
    have h2 := preorder_length t
    rw [getNLeaves_eq]
    omega
  have hpos := leaves_pos t
  refine ⟨strLines f t [] none, ?_, hl, hlen, ?_, hsome⟩
  · unfold str
    rw [ofNode_isFitted, if_pos rfl, strInto_eq hv]
  · rw [newlines_join _ hl, hlen]
    rw [getNLeaves_eq] at *
    omega

/-- C57 (order): the addresses whose lines are printed are exactly the addresses of nodes, each once;
of two of them the earlier one is an ancestor of the later one, or they part ways at some node and the
earlier one lies below its first child. -/
theorem C57_order (t : Node Sp S K P) :
    (∀ addr, addr ∈ preorder t ↔ (nodeAt t addr).isSome) ∧ (preorder t).Nodup ∧
    (preorder t).Pairwise fun a b =>
      (∃ s, b = a ++ s) ∨ ∃ p s s', a = p ++ false :: s ∧ b = p ++ true :: s' :=
  ⟨preorder_mem t, preorder_nodup t, preorder_order t⟩

/-- C57 (unfitted): an object without posterior prints `Unfitted model`. -/
theorem C57_unfitted (f : Fmt Sp P) (view : A → Option Sp) (self : Obj A S K P)
    (h : self.isFitted = false) : str f view self = .ok "Unfitted model" := by
  unfold str
  rw [h, if_neg (by simp)]

end

/-- C57 is false as stated: a feature name (or a long array) containing a newline spreads a node over two
lines; here a tree with one split and two leaves prints four lines. -/
theorem C57_refuted : ∃ (f : Fmt (PSplit ℚ) (List ℚ)) (t : PNode ℚ ℚ ℚ (List ℚ)) (s : String),
    str f PAttr.view (perpObj t) = .ok s ∧ 2 * t.getNLeaves - 1 = 3 ∧ newlines s + 1 = 4 := by
  refine ⟨perpFmt (fun _ => "v") (fun _ => "0") (fun _ => "p") false,
    .split ⟨⟨1, 0, false, 0⟩, none, 0, some 1, 2, []⟩ ⟨0, "a\nb", 1⟩ 0 1
      (.leaf ⟨⟨1, 0, false, 0⟩, none, 1, none, 1, []⟩) (.leaf ⟨⟨1, 0, false, 0⟩, none, 1, none, 1, []⟩), _, rfl,
    by decide, by decide⟩

/-- A formatting of rationals for examples. -/
def sampleFmt : Fmt (PSplit ℚ) (List ℚ) :=
  perpFmt (fun v => if v = 3 / 2 then "1.5" else "3.5") (fun p => if p = [1, 5] then "1" else "0")
    (fun p => if p = [1, 5] then "[0.167 0.833]" else "[0.833 0.167]") false

/-- Non-vacuity: the sample tree has three leaves and prints five lines. -/
example : OneLinePieces sampleFmt sampleTree ∧ sampleTree.getNLeaves = 3 := by
  refine ⟨⟨by decide +kernel, by decide +kernel, ⟨by decide +kernel, fun _ => by decide +kernel⟩,
    by decide +kernel, by decide +kernel, ⟨by decide +kernel, fun _ => by decide +kernel⟩,
    by decide +kernel, fun _ => by decide +kernel⟩, by decide⟩

/-- The text itself. -/
example : str sampleFmt PAttr.view (perpObj sampleTree) = .ok
    ("a=1.5\n ├ <1.5: y=0, n=4, p(y)=[0.833 0.167]\n └ ≥1.5: a=3.5\n" ++
     "    ├ <3.5: y=1, n=4, p(y)=[0.167 0.833]\n    └ ≥3.5: y=0, n=4, p(y)=[0.833 0.167]") := by
  decide +kernel

end BT
