import Verif.Spec.Version
import Mathlib.Data.List.Basic
import Mathlib.Tactic.Tauto
import Mathlib.Tactic.IntervalCases

/-!
# Texts: stripping, splitting at hyphens, decimal numerals
-/

namespace BT
namespace Version
open Spec

/-! ### Characters -/

lemma isSpace_of_lt {c : Char} (h : 32 < c.toNat) : isSpace c = false := by
  unfold isSpace
  by_contra hc
  simp only [Bool.not_eq_false, decide_eq_true_eq] at hc
  have : ∀ d ∈ [' ', '\t', '\n', '\r', '\x0b', '\x0c', '\x1c', '\x1d', '\x1e', '\x1f'], d.toNat ≤ 32 := by
    decide
  exact absurd (this c hc) (by omega)

lemma isHex_iff {c : Char} : isHex c = true ↔ c ∈ "0123456789abcdef".toList := by
  constructor
  · intro h
    have h' : (48 ≤ c.toNat ∧ c.toNat ≤ 57) ∨ (97 ≤ c.toNat ∧ c.toNat ≤ 102) := by
      simp only [isHex, isDigit, Char.isDigit, Bool.or_eq_true, Bool.and_eq_true, decide_eq_true_eq] at h
      rcases h with h | h
      · exact Or.inl ⟨h.1, h.2⟩
      · exact Or.inr ⟨h.1, h.2⟩
    have hc : c = Char.ofNat c.toNat := by simp
    rw [hc]
    obtain ⟨n, hn⟩ : ∃ n, n = c.toNat := ⟨_, rfl⟩
    rw [← hn] at h' ⊢
    rcases h' with ⟨h1, h2⟩ | ⟨h1, h2⟩ <;> interval_cases n <;> decide
  · intro h
    have : ∀ d ∈ "0123456789abcdef".toList, isHex d = true := by decide
    exact this c h

lemma hexText_all {s : Text} (h : HexText s) : s.all isHex = true := by
  rw [List.all_eq_true]
  exact fun c hc => isHex_iff.2 (h.2 c hc)

lemma hex_lt {c : Char} (h : c ∈ "0123456789abcdef".toList) : 32 < c.toNat ∧ c ≠ '-' ∧ c ≠ 'y' := by
  have : ∀ d ∈ "0123456789abcdef".toList, 32 < d.toNat ∧ d ≠ '-' ∧ d ≠ 'y' := by decide
  exact this c h

lemma digit_lt {c : Char} (h : c.isDigit = true) : 32 < c.toNat ∧ c ≠ '-' := by
  have h' : 48 ≤ c.toNat := by
    simp only [Char.isDigit, Bool.and_eq_true, decide_eq_true_eq] at h
    exact h.1
  refine ⟨by omega, ?_⟩
  rintro rfl
  exact absurd h (by decide)

lemma Spec.HexText.printable {s : Text} (h : HexText s) : Printable s := ⟨h.1, fun c hc => (hex_lt (h.2 c hc)).1⟩

/-! ### `strip` -/

/-- Text that begins and ends with visible characters. -/
def Clean (s : Text) : Prop :=
  s ≠ [] ∧ (∀ c, s.head? = some c → 32 < c.toNat) ∧ ∀ c, s.getLast? = some c → 32 < c.toNat

lemma Spec.Printable.clean {s : Text} (h : Printable s) : Clean s := by
  refine ⟨h.1, fun c hc => h.2 c ?_, fun c hc => h.2 c ?_⟩
  · exact List.mem_of_mem_head? hc
  · exact List.mem_of_mem_getLast? hc

lemma Clean.append {a b : Text} (m : Text) (ha : Clean a) (hb : Clean b) : Clean (a ++ m ++ b) := by
  obtain ⟨c, a', rfl⟩ := List.exists_cons_of_ne_nil ha.1
  refine ⟨by simp, fun d hd => ha.2.1 d (by simpa using hd), fun d hd => hb.2.2 d ?_⟩
  rw [List.getLast?_append] at hd
  cases hl : b.getLast? with
  | none => exact absurd (List.getLast?_eq_none_iff.1 hl) hb.1
  | some e => rw [hl] at hd; simpa using hd

lemma dropWhile_of_head {p : Char → Bool} {s : Text} (h : ∀ c, s.head? = some c → p c = false) :
    s.dropWhile p = s := by
  cases s with
  | nil => rfl
  | cons c s => simp [h c rfl]

lemma strip_clean {s : Text} (h : Clean s) : strip s = s := by
  unfold strip stripBy
  rw [dropWhile_of_head fun c hc => isSpace_of_lt (h.2.1 c hc),
    dropWhile_of_head fun c hc => isSpace_of_lt (h.2.2 c (by simpa using hc)), List.reverse_reverse]

lemma strip_line {s : Text} (h : Clean s) : strip (s ++ ['\n']) = s := by
  obtain ⟨c, s', rfl⟩ := List.exists_cons_of_ne_nil h.1
  unfold strip stripBy
  rw [dropWhile_of_head (s := c :: s' ++ ['\n']) fun d hd => isSpace_of_lt (h.2.1 d (by simpa using hd)),
    List.reverse_append]
  have : ['\n'].reverse ++ (c :: s').reverse = '\n' :: (c :: s').reverse := rfl
  rw [this, List.dropWhile_cons, if_pos (by decide),
    dropWhile_of_head fun d hd => isSpace_of_lt (h.2.2 d (by rwa [List.head?_reverse] at hd)),
    List.reverse_reverse]

/-! ### Dates -/

lemma replaceFirst_mid {a b r : Text} {c : Char} (h : c ∉ a) :
    replaceFirst c r (a ++ c :: b) = a ++ r ++ b := by
  induction a with
  | nil => simp [replaceFirst]
  | cons d a ih =>
    have hd : d ≠ c := fun e => h (by simp [e])
    simp only [List.cons_append, replaceFirst, if_neg hd]
    rw [ih (fun hc => h (by simp [hc]))]

lemma isoDate_eq {d t z : Text} (hd : Printable d) (ht : Printable t) (hz : Printable z) :
    isoDate (d ++ " ".toList ++ t ++ " ".toList ++ z) = d ++ "T".toList ++ t ++ z := by
  have hsp : ∀ {s : Text}, Printable s → ' ' ∉ s := fun hs hc => absurd (hs.2 ' ' hc) (by decide)
  have hc : Clean (d ++ " ".toList ++ t ++ " ".toList ++ z) := by
    have := hd.clean.append (" ".toList ++ t ++ " ".toList) hz.clean
    simpa [List.append_assoc] using this
  unfold isoDate
  rw [strip_clean hc]
  have e1 : d ++ " ".toList ++ t ++ " ".toList ++ z = d ++ ' ' :: (t ++ ' ' :: z) := by
    simp
  rw [e1, replaceFirst_mid (hsp hd)]
  have e2 : d ++ ['T'] ++ (t ++ ' ' :: z) = (d ++ ['T'] ++ t) ++ ' ' :: z := by simp
  rw [e2, replaceFirst_mid]
  · simp
  · simp only [List.mem_append, List.mem_singleton, not_or]
    exact ⟨⟨hsp hd, by decide⟩, hsp ht⟩

/-! ### The last hyphen -/

lemma first_char {c : Char} {x x' y y' : Text} (hx : c ∉ x) (hx' : c ∉ x') (h : x ++ c :: y = x' ++ c :: y') :
    x = x' ∧ y = y' := by
  induction x generalizing x' with
  | nil =>
    cases x' with
    | nil => simpa using h
    | cons d x' =>
      simp only [List.nil_append, List.cons_append, List.cons.injEq] at h
      exact absurd (by simp [h.1]) hx'
  | cons d x ih =>
    cases x' with
    | nil =>
      simp only [List.nil_append, List.cons_append, List.cons.injEq] at h
      exact absurd (by simp [h.1]) hx
    | cons d' x' =>
      simp only [List.cons_append, List.cons.injEq] at h
      obtain ⟨h1, h2⟩ := ih (fun m => hx (by simp [m])) (fun m => hx' (by simp [m])) h.2
      exact ⟨by rw [h.1, h1], h2⟩

lemma last_hyphen {a a' e e' : Text} {c : Char} (h : a ++ c :: e = a' ++ c :: e') (he : c ∉ e) (he' : c ∉ e') :
    a = a' ∧ e = e' := by
  have hr : e.reverse ++ c :: a.reverse = e'.reverse ++ c :: a'.reverse := by
    have := congrArg List.reverse h
    simpa using this
  obtain ⟨h1, h2⟩ := first_char (by simpa using he) (by simpa using he') hr
  exact ⟨by simpa using h2, by simpa using h1⟩

/-! ### The regular expression -/

lemma matchTail_iff {s d h : Text} :
    matchTail s = some (d, h) ↔ s = '-' :: (d ++ '-' :: 'g' :: h) ∧ Num d ∧ HexText h := by
  constructor
  · intro hm
    cases s with
    | nil => simp [matchTail] at hm
    | cons c r =>
      by_cases hc : c = '-'
      · subst hc
        simp only [matchTail] at hm
        have hsplit : r = r.takeWhile isDigit ++ r.dropWhile isDigit := (List.takeWhile_append_dropWhile).symm
        split at hm
        · rename_i h' heq
          split_ifs at hm with hcond
          simp only [Option.some.injEq, Prod.mk.injEq] at hm
          obtain ⟨h1, h2⟩ := hm
          subst h2
          rw [heq, h1] at hsplit
          refine ⟨by rw [hsplit], ⟨h1 ▸ hcond.1, fun c hc => ?_⟩, hcond.2.1, fun c hc => ?_⟩
          · exact (List.all_eq_true.1 (List.all_takeWhile (l := r) (p := isDigit))) c (h1 ▸ hc)
          · exact isHex_iff.1 (List.all_eq_true.1 hcond.2.2 c hc)
        · simp at hm
      · unfold matchTail at hm
        split at hm
        · rename_i heq
          simp only [List.cons.injEq] at heq
          exact absurd heq.1 hc
        · simp at hm
  · rintro ⟨rfl, hd, hh⟩
    have htw : (d ++ '-' :: 'g' :: h).takeWhile isDigit = d := by
      rw [List.takeWhile_append_of_pos (p := isDigit) (fun c hc => hd.2 c hc)]
      simp [isDigit]
    have hdw : (d ++ '-' :: 'g' :: h).dropWhile isDigit = '-' :: 'g' :: h := by
      rw [List.dropWhile_append_of_pos (p := isDigit) (fun c hc => hd.2 c hc)]
      simp [isDigit]
    simp only [matchTail, htw, hdw]
    rw [if_pos ⟨hd.1, hh.1, hexText_all hh⟩]

lemma split_unique {t d h t' d' h' : Text} (hd : Num d) (hh : HexText h) (hd' : Num d') (hh' : HexText h')
    (e : t ++ '-' :: (d ++ '-' :: 'g' :: h) = t' ++ '-' :: (d' ++ '-' :: 'g' :: h')) :
    t = t' ∧ d = d' ∧ h = h' := by
  have nh : ∀ {h : Text}, HexText h → '-' ∉ 'g' :: h := by
    intro h hh hm
    rcases List.mem_cons.1 hm with hm | hm
    · exact absurd hm (by decide)
    · exact (hex_lt (hh.2 _ hm)).2.1 rfl
  have nd : ∀ {d : Text}, Num d → '-' ∉ d := fun hd hm => (digit_lt (hd.2 _ hm)).2 rfl
  have e1 : (t ++ '-' :: d) ++ '-' :: ('g' :: h) = (t' ++ '-' :: d') ++ '-' :: ('g' :: h') := by
    simpa using e
  obtain ⟨h1, h2⟩ := last_hyphen e1 (nh hh) (nh hh')
  obtain ⟨h3, h4⟩ := last_hyphen h1 (nd hd) (nd hd')
  exact ⟨h3, h4, by simpa using h2⟩

/-- The text without a final line break. -/
def bodyOf (s : Text) : Text := if s.getLast? = some '\n' then s.dropLast else s

lemma matchDescribe_iff {s t d h : Text} :
    matchDescribe s = some (t, d, h) ↔
      bodyOf s = t ++ '-' :: (d ++ '-' :: 'g' :: h) ∧ t ≠ [] ∧ '\n' ∉ t ∧ Num d ∧ HexText h := by
  have hdef : matchDescribe s = (List.range ((bodyOf s).length + 1)).reverse.findSome? fun i =>
      if (bodyOf s).take i ≠ [] ∧ '\n' ∉ (bodyOf s).take i then
        (matchTail ((bodyOf s).drop i)).map fun p => ((bodyOf s).take i, p.1, p.2) else none := rfl
  rw [hdef]
  generalize bodyOf s = b
  have sound : ∀ {i : Nat} {t d h : Text},
      (if b.take i ≠ [] ∧ '\n' ∉ b.take i then
        (matchTail (b.drop i)).map fun p => (b.take i, p.1, p.2) else none) = some (t, d, h) →
      b = t ++ '-' :: (d ++ '-' :: 'g' :: h) ∧ t ≠ [] ∧ '\n' ∉ t ∧ Num d ∧ HexText h := by
    intro i t d h hi
    split_ifs at hi with hc
    simp only [Option.map_eq_some_iff, Prod.mk.injEq, Prod.exists] at hi
    obtain ⟨d', h', hm, rfl, rfl, rfl⟩ := hi
    obtain ⟨h1, h2, h3⟩ := matchTail_iff.1 hm
    exact ⟨by rw [← h1, List.take_append_drop], hc.1, hc.2, h2, h3⟩
  constructor
  · intro hm
    obtain ⟨i, _, hi⟩ := List.exists_of_findSome?_eq_some hm
    exact sound hi
  · rintro ⟨hb, ht, hn, hd, hh⟩
    have hlen : t.length ∈ (List.range (b.length + 1)).reverse := by
      simp only [List.mem_reverse, List.mem_range, hb, List.length_append]
      omega
    cases hm : (List.range (b.length + 1)).reverse.findSome? fun i =>
      if b.take i ≠ [] ∧ '\n' ∉ b.take i then
        (matchTail (b.drop i)).map fun p => (b.take i, p.1, p.2) else none with
    | none =>
      have := List.findSome?_eq_none_iff.1 hm _ hlen
      rw [hb, List.take_left, List.drop_left, if_pos ⟨ht, hn⟩, matchTail_iff.2 ⟨rfl, hd, hh⟩] at this
      simp at this
    | some r =>
      obtain ⟨t', d', h'⟩ := r
      obtain ⟨i, _, hi⟩ := List.exists_of_findSome?_eq_some hm
      obtain ⟨hb', _, _, hd', hh'⟩ := sound hi
      obtain ⟨rfl, rfl, rfl⟩ := split_unique hd hh hd' hh' (hb ▸ hb')
      rfl

/-! ### Numerals -/

lemma decText_num (n : Nat) : Num (decText n) :=
  ⟨Nat.toDigits_ne_nil, fun _ hc => Nat.isDigit_of_mem_toDigits (by decide) (by decide) hc⟩

lemma intOf_decText (n : Nat) : intOf (decText n) = some n := by
  unfold intOf
  rw [if_pos ⟨(decText_num n).1, List.all_eq_true.2 (decText_num n).2⟩]
  exact congrArg some (Nat.ofDigitChars_toDigits (by decide) (by decide))

lemma decText_inj {m n : Nat} (h : decText m = decText n) : m = n := by
  have := congrArg intOf h
  rw [intOf_decText, intOf_decText] at this
  exact Option.some.inj this

lemma toString_toList (n : Nat) : (toString n).toList = decText n := by
  simp [decText]

lemma Spec.Num.printable {s : Text} (h : Num s) : Printable s := ⟨h.1, fun c hc => (digit_lt (h.2 c hc)).1⟩

/-! ### Running `git` -/

/-- `run_command(["git"], ·)`. -/
def gitOf (popen : Text → List Text → Proc) : List Text → Option Text × Option Int :=
  runCommand popen (gitNames false)

lemma gitOf_prints {popen : Text → List Text → Proc} {args : List Text} {line : Text}
    (h : Prints popen args line) : gitOf popen args = (some (strip (line ++ ['\n'])), some 0) := by
  have e : gitOf popen args = runCommand popen ["git".toList] args := rfl
  unfold Prints at h
  rw [e, runCommand, h]
  rfl

lemma gitOf_clean {popen : Text → List Text → Proc} {args : List Text} {line : Text}
    (h : Prints popen args line) (hc : Clean line) : gitOf popen args = (some line, some 0) := by
  rw [gitOf_prints h, strip_line hc]

end Version
end BT
