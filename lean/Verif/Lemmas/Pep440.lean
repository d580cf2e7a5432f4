import Verif.Lemmas.Version

/-!
# Versions by PEP 440: characters, first character, local parts
-/

namespace BT
namespace Version
open Spec

/-- The characters of public versions. -/
def PubChar (c : Char) : Prop := c.isDigit = true ∨ c.isLower = true ∨ c = '.' ∨ c = '!'

lemma release_chars {r : Text} (h : Release r) : ∀ c ∈ r, c.isDigit = true ∨ c = '.' := by
  induction h with
  | one h => exact fun c hc => Or.inl (h.2 c hc)
  | more _ h ih =>
    intro c hc
    simp only [List.mem_append] at hc
    rcases hc with (hc | hc) | hc
    · exact ih c hc
    · exact Or.inr (by simpa using hc)
    · exact Or.inl (h.2 c hc)

lemma release_head {r : Text} (h : Release r) : ∃ c s, r = c :: s ∧ c.isDigit = true := by
  induction h with
  | one h =>
    obtain ⟨c, s, rfl⟩ := List.exists_cons_of_ne_nil h.1
    exact ⟨c, s, rfl, h.2 c (by simp)⟩
  | more _ _ ih =>
    obtain ⟨c, s, rfl, hc⟩ := ih
    exact ⟨c, _, rfl, hc⟩

lemma base_head {v : Text} (h : Base v) : ∃ c s, v = c :: s ∧ c.isDigit = true := by
  obtain ⟨e, r, p, rfl, he, hr, _⟩ := h
  rcases he with rfl | ⟨n, hn, rfl⟩
  · obtain ⟨c, s, rfl, hc⟩ := release_head hr
    exact ⟨c, s ++ p, rfl, hc⟩
  · obtain ⟨c, s, rfl⟩ := List.exists_cons_of_ne_nil hn.1
    exact ⟨c, _, rfl, hn.2 c (by simp)⟩

lemma public_head {v : Text} (h : Public v) : ∃ c s, v = c :: s ∧ c.isDigit = true := by
  obtain ⟨b, p, d, rfl, hb, _⟩ := h
  obtain ⟨c, s, rfl, hc⟩ := base_head hb
  exact ⟨c, s ++ p ++ d, by simp, hc⟩

lemma pep440_head {v : Text} (h : Pep440 v) : ∃ c s, v = c :: s ∧ c.isDigit = true := by
  rcases h with h | ⟨p, l, hp, _, rfl⟩
  · exact public_head h
  · obtain ⟨c, s, rfl, hc⟩ := public_head hp
    exact ⟨c, _, rfl, hc⟩

lemma pubChar_of_mem {l : Text} (h : ∀ c ∈ l, PubChar c) {m : Text} (hm : ∀ c ∈ m, PubChar c) :
    ∀ c ∈ l ++ m, PubChar c := by
  intro c hc
  rcases List.mem_append.1 hc with hc | hc
  · exact h c hc
  · exact hm c hc

lemma pubChar_lit {l : Text} (h : l.all (fun c => c.isDigit || c.isLower || c == '.' || c == '!') = true) :
    ∀ c ∈ l, PubChar c := by
  intro c hc
  have := List.all_eq_true.1 h c hc
  simp only [Bool.or_eq_true, beq_iff_eq] at this
  unfold PubChar
  tauto

lemma pubChar_num {n : Text} (h : Num n) : ∀ c ∈ n, PubChar c := fun c hc => Or.inl (h.2 c hc)

lemma base_chars {v : Text} (h : Base v) : ∀ c ∈ v, PubChar c := by
  obtain ⟨e, r, p, rfl, he, hr, hp⟩ := h
  refine pubChar_of_mem (pubChar_of_mem ?_ ?_) ?_
  · rcases he with rfl | ⟨n, hn, rfl⟩
    · simp
    · exact pubChar_of_mem (pubChar_num hn) (pubChar_lit (by decide))
  · intro c hc
    rcases release_chars hr c hc with h | h
    · exact Or.inl h
    · exact Or.inr (Or.inr (Or.inl h))
  · rcases hp with rfl | ⟨l, hl, n, hn, rfl⟩
    · simp
    · refine pubChar_of_mem (pubChar_lit ?_) (pubChar_num hn)
      have : ∀ l ∈ ["a".toList, "b".toList, "rc".toList],
        l.all (fun c => c.isDigit || c.isLower || c == '.' || c == '!') = true := by decide
      exact this l hl

lemma public_chars {v : Text} (h : Public v) : ∀ c ∈ v, PubChar c := by
  obtain ⟨b, p, d, rfl, hb, hp, hd⟩ := h
  refine pubChar_of_mem (pubChar_of_mem (base_chars hb) ?_) ?_
  · rcases hp with rfl | rfl | ⟨n, hn, rfl⟩
    · simp
    · exact pubChar_lit (by decide)
    · exact pubChar_of_mem (pubChar_lit (by decide)) (pubChar_num hn)
  · rcases hd with rfl | ⟨n, hn, rfl⟩
    · simp
    · exact pubChar_of_mem (pubChar_lit (by decide)) (pubChar_num hn)

lemma public_no_plus {v : Text} (h : Public v) : '+' ∉ v := fun hm =>
  absurd (public_chars h '+' hm) (by unfold PubChar; decide)

lemma Spec.Num.alnum {s : Text} (h : Num s) : Alnum s := ⟨h.1, fun c hc => Or.inl (h.2 c hc)⟩

lemma gHex_alnum {h : Text} (hh : HexText h) : Alnum ('g' :: h) := by
  refine ⟨by simp, fun c hc => ?_⟩
  rcases List.mem_cons.1 hc with rfl | hc
  · exact Or.inr (by decide)
  · have : ∀ d ∈ "0123456789abcdef".toList, d.isDigit = true ∨ d.isLower = true := by decide
    exact this c (hh.2 c hc)

/-- `N.gHEX[.dirty]` -/
def stateText (n : Nat) (h : Text) (dirty : Bool) : Text :=
  decText n ++ ".".toList ++ 'g' :: h ++ (if dirty then ".dirty".toList else [])

lemma stateText_local {n : Nat} {h : Text} {dirty : Bool} (hh : HexText h) :
    LocalPart (stateText n h dirty) := by
  have h1 : LocalPart (decText n ++ ".".toList ++ 'g' :: h) :=
    .more (.one (decText_num n).alnum) (gHex_alnum hh)
  cases dirty with
  | false => simpa [stateText] using h1
  | true =>
    have := LocalPart.more h1 (s := "dirty".toList) ⟨by decide, by decide⟩
    simpa [stateText] using this

lemma local_append {l : Text} {n : Nat} {h : Text} {dirty : Bool} (hl : LocalPart l) (hh : HexText h) :
    LocalPart (l ++ ".".toList ++ stateText n h dirty) := by
  have h1 : LocalPart (l ++ ".".toList ++ decText n) := .more hl (decText_num n).alnum
  have h2 : LocalPart (l ++ ".".toList ++ decText n ++ ".".toList ++ 'g' :: h) := .more h1 (gHex_alnum hh)
  cases dirty with
  | false => simpa [stateText] using h2
  | true =>
    have := LocalPart.more h2 (s := "dirty".toList) ⟨by decide, by decide⟩
    simpa [stateText] using this

lemma base_of_release {r : Text} (h : Release r) : Base r := ⟨[], r, [], by simp, Or.inl rfl, h, Or.inl rfl⟩

lemma base_zero : Base "0".toList := base_of_release (.one ⟨by decide, by decide⟩)

lemma public_of_base {b : Text} (h : Base b) : Public b := ⟨b, [], [], by simp, h, Or.inl rfl, Or.inl rfl⟩

lemma public_post {b : Text} (h : Base b) (n : Nat) (dirty : Bool) :
    Public (b ++ (".post".toList ++ decText n) ++ (if dirty then ".dev0".toList else [])) := by
  refine ⟨b, ".post".toList ++ decText n, _, rfl, h, Or.inr (Or.inr ⟨_, decText_num n, rfl⟩), ?_⟩
  cases dirty with
  | false => exact Or.inl rfl
  | true => exact Or.inr ⟨"0".toList, ⟨by decide, by decide⟩, by decide⟩

lemma public_dev {b : Text} (h : Base b) (n : Nat) : Public (b ++ (".post.dev".toList ++ decText n)) :=
  ⟨b, ".post".toList, ".dev".toList ++ decText n, by simp, h, Or.inr (Or.inl rfl),
    Or.inr ⟨_, decText_num n, rfl⟩⟩

end Version
end BT
