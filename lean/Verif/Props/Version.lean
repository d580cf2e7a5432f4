import Verif.Lemmas.Pep440

/-!
# Version strings: C116 (reading `git describe`), C117 (rendering), C118 (`__version__` and the version of
`setup.py`), C119 (importing the package)
-/

namespace BT
open Version Version.Spec

/-! ### C116 -/

/-- **C116.** The regular expression matches exactly the texts `TAG-NUM-gHEX` (with at most one line break
behind them), and the groups it returns are the only possible ones. -/
theorem C116_regex (s t d h : Text) :
    matchDescribe s = some (t, d, h) ↔
      (∃ b, b = t ++ "-".toList ++ d ++ "-g".toList ++ h ∧ (s = b ∨ s = b ++ "\n".toList)) ∧
        t ≠ [] ∧ '\n' ∉ t ∧ Num d ∧ HexText h := by
  rw [matchDescribe_iff]
  have hb : t ++ "-".toList ++ d ++ "-g".toList ++ h = t ++ '-' :: (d ++ '-' :: 'g' :: h) := by simp
  have key : HexText h → (bodyOf s = t ++ '-' :: (d ++ '-' :: 'g' :: h) ↔
      s = t ++ '-' :: (d ++ '-' :: 'g' :: h) ∨ s = t ++ '-' :: (d ++ '-' :: 'g' :: h) ++ "\n".toList) := by
    intro hh
    have hlast : (t ++ '-' :: (d ++ '-' :: 'g' :: h)).getLast? ≠ some '\n' := by
      intro hl
      have e : t ++ '-' :: (d ++ '-' :: 'g' :: h) = (t ++ '-' :: (d ++ ['-', 'g'])) ++ h := by simp
      rw [e, List.getLast?_append] at hl
      cases hh' : h.getLast? with
      | none => exact absurd (List.getLast?_eq_none_iff.1 hh') hh.1
      | some c =>
        rw [hh'] at hl
        have hc : c = '\n' := by simpa using hl
        have := hh.2 c (List.mem_of_mem_getLast? hh')
        rw [hc] at this
        exact absurd this (by decide)
    unfold bodyOf
    split_ifs with hs
    · have hd : s = s.dropLast ++ "\n".toList := by
        have := List.dropLast_append_getLast? '\n' hs
        exact this.symm
      constructor
      · intro e
        rw [e] at hd
        exact Or.inr hd
      · rintro (e | e)
        · rw [e] at hs; exact absurd hs hlast
        · rw [e]
          exact List.dropLast_concat
    · constructor
      · exact Or.inl
      · rintro (e | e)
        · exact e
        · rw [e] at hs
          exact absurd (List.getLast?_concat) hs
  constructor
  · rintro ⟨h1, h2, h3, h4, h5⟩
    exact ⟨⟨_, rfl, by rw [hb]; exact (key h5).1 h1⟩, h2, h3, h4, h5⟩
  · rintro ⟨⟨b, rfl, h1⟩, h2, h3, h4, h5⟩
    exact ⟨(key h5).2 (by rwa [hb] at h1), h2, h3, h4, h5⟩

/-- A tag that itself looks like the output of `git describe`. -/
example : matchDescribe "v1-2-gab-0-g12f".toList = some ("v1-2-gab".toList, "0".toList, "12f".toList) := by
  rw [C116_regex]
  exact ⟨⟨_, rfl, Or.inl (by decide)⟩, by decide, by decide, ⟨by decide, by decide⟩, by decide, by decide⟩

lemma describe_eq (t : Text) (n : Nat) (h : Text) (dirty : Bool) :
    describeTagged t n h dirty =
      t ++ '-' :: (decText n ++ '-' :: 'g' :: h) ++ (if dirty then "-dirty".toList else []) := by
  unfold describeTagged
  rw [toString_toList]
  simp

lemma dirty_suffix {b h : Text} (hh : HexText h) (dirty : Bool) :
    "-dirty".toList.isSuffixOf (b ++ h ++ (if dirty then "-dirty".toList else [])) = dirty := by
  cases dirty with
  | true =>
    rw [List.isSuffixOf_iff_suffix]
    exact ⟨b ++ h, rfl⟩
  | false =>
    rw [Bool.eq_false_iff]
    intro hs
    rw [List.isSuffixOf_iff_suffix] at hs
    obtain ⟨r, hr⟩ := hs
    have h1 : (b ++ h).getLast? = some 'y' := by
      have := congrArg List.getLast? hr
      rw [List.getLast?_append] at this
      simpa using this.symm
    rw [List.getLast?_append] at h1
    cases hl : h.getLast? with
    | none => exact absurd (List.getLast?_eq_none_iff.1 hl) hh.1
    | some c =>
      rw [hl] at h1
      have hc : c = 'y' := by simpa using h1
      exact (hex_lt (hh.2 c (List.mem_of_mem_getLast? hl))).2.2 hc

lemma drop_dirty (b : Text) (dirty : Bool) :
    (if dirty = true then (b ++ (if dirty then "-dirty".toList else [])).take
        ((b ++ (if dirty then "-dirty".toList else [])).length - "-dirty".toList.length)
      else b ++ (if dirty then "-dirty".toList else [])) = b := by
  cases dirty with
  | false => simp
  | true => simp

lemma dirty_printable {b : Text} (hb : Printable b) (dirty : Bool) :
    Printable (b ++ (if dirty then "-dirty".toList else [])) := by
  refine ⟨by simp [hb.1], fun c hc => ?_⟩
  rcases List.mem_append.1 hc with hc | hc
  · exact hb.2 c hc
  · cases dirty with
    | false => simp at hc
    | true =>
      have : ∀ c ∈ "-dirty".toList, 32 < c.toNat := by decide
      exact this c (by simpa using hc)

lemma date_clean {d t z : Text} (hd : Printable d) (hz : Printable z) :
    Clean (d ++ " ".toList ++ t ++ " ".toList ++ z) := by
  have := hd.clean.append (" ".toList ++ t ++ " ".toList) hz.clean
  simpa [List.append_assoc] using this

/-- **C116.** `run_command` tries the names in turn: a name is skipped exactly when there is no such program, and the first
other one decides. -/
theorem C116_command (popen : Text → List Text → Proc) (pre post : List Text) (c : Text) (args : List Text)
    (hpre : ∀ d ∈ pre, popen d args = .enoent) :
    (∀ out, popen c args = .ran out 0 → runCommand popen (pre ++ c :: post) args = (some (strip out), some 0)) ∧
    (∀ out rc, rc ≠ 0 → popen c args = .ran out rc → runCommand popen (pre ++ c :: post) args = (none, some rc)) ∧
    (popen c args = .failed → runCommand popen (pre ++ c :: post) args = (none, none)) ∧
    runCommand popen pre args = (none, none) := by
  induction pre with
  | nil =>
    refine ⟨fun out h => ?_, fun out rc hrc h => ?_, fun h => ?_, rfl⟩ <;> simp [runCommand, h]
    exact hrc
  | cons d l ih =>
    have hd := hpre d List.mem_cons_self
    have := ih fun e he => hpre e (List.mem_cons_of_mem _ he)
    simpa [runCommand, hd] using this

/-- C116: with the names used on Windows, where only `git.exe` exists. -/
example (out : Text) : runCommand (fun c _ => if c = "git.exe".toList then .ran out 0 else .enoent)
    ["git.cmd".toList, "git.exe".toList] argsHead = (some (strip out), some 0) :=
  (C116_command _ ["git.cmd".toList] [] "git.exe".toList argsHead (by simp)).1 out (by simp)

/-- **C116.** In a checkout, tag, number of commits since the tag, abbreviated commit, whether files were
changed, full commit and date are read back from what `git` prints, whatever the tag is called. -/
theorem C116_tagged {popen : Text → List Text → Proc} {pre tag hex full day time zone : Text} {n : Nat}
    {dirty : Bool} (hc : Checkout popen pre (describeTagged (pre ++ tag) n hex dirty) full day time zone)
    (ht : Printable (pre ++ tag)) (hh : HexText hex) :
    piecesFromVcs (runCommand popen ["git".toList]) pre =
      .ok ⟨full, hex, none, dirty, some (some tag), some n, some (day ++ "T".toList ++ time ++ zone)⟩ := by
  have hb : Printable ((pre ++ tag) ++ '-' :: (decText n ++ '-' :: 'g' :: hex)) := by
    refine ⟨by simp, fun c hm => ?_⟩
    simp only [List.mem_append, List.mem_cons] at hm
    rcases hm with (hm | hm) | rfl | hm | rfl | rfl | hm
    · exact ht.2 c (by simp [hm])
    · exact ht.2 c (by simp [hm])
    · decide
    · exact (decText_num n).printable.2 c hm
    · decide
    · decide
    · exact hh.printable.2 c hm
  obtain ⟨dir, hdir⟩ := hc.gitDir
  have g0 : (runCommand popen ["git".toList] argsGitDir).2 = some 0 := congrArg Prod.snd (gitOf_prints hdir)
  have hdc := (dirty_printable hb dirty).clean
  have g1 : (runCommand popen ["git".toList] (argsDescribe pre)).1 = some
      ((pre ++ tag) ++ '-' :: (decText n ++ '-' :: 'g' :: hex) ++ (if dirty then "-dirty".toList else [])) := by
    have := hc.describe
    rw [describe_eq] at this
    exact congrArg Prod.fst (gitOf_clean this hdc)
  have g2 : (runCommand popen ["git".toList] argsHead).1 = some full :=
    congrArg Prod.fst (gitOf_clean hc.head hc.hex.printable.clean)
  have g3 : (runCommand popen ["git".toList] argsDate).1 = some
      (day ++ " ".toList ++ time ++ " ".toList ++ zone) :=
    congrArg Prod.fst (gitOf_clean hc.date (date_clean hc.day hc.zone))
  have hsuf : "-dirty".toList.isSuffixOf
      ((pre ++ tag) ++ '-' :: (decText n ++ '-' :: 'g' :: hex) ++ (if dirty then "-dirty".toList else [])) =
        dirty := by
    have := dirty_suffix (b := (pre ++ tag) ++ '-' :: (decText n ++ ['-', 'g'])) hh dirty
    simpa [List.append_assoc] using this
  have hmatch : matchDescribe ((pre ++ tag) ++ '-' :: (decText n ++ '-' :: 'g' :: hex)) =
      some (pre ++ tag, decText n, hex) := by
    rw [C116_regex]
    refine ⟨⟨_, rfl, Or.inl (by simp)⟩, ht.1, ?_, decText_num n, hh⟩
    intro hm
    exact absurd (ht.2 _ hm) (by decide)
  have hpre : pre.isPrefixOf (pre ++ tag) = true := by
    rw [List.isPrefixOf_iff_prefix]; exact ⟨tag, rfl⟩
  unfold piecesFromVcs
  rw [if_neg (by rw [g0]; simp)]
  simp only [g1, g2, strip_clean hdc, strip_clean hc.hex.printable.clean, hsuf]
  rw [drop_dirty, if_pos (by simp)]
  simp only [hmatch, hpre, Bool.true_eq_false, if_false, intOf_decText, commitDate, g3,
    isoDate_eq hc.day hc.time hc.zone, List.drop_left]

/-- **C116.** Without a tag the number of commits comes from `git rev-list` and the abbreviated commit is the
first seven characters of the full one. -/
theorem C116_untagged {popen : Text → List Text → Proc} {pre hex full day time zone : Text} {n : Nat}
    {dirty : Bool} (hc : Checkout popen pre (describeBare hex dirty) full day time zone) (hh : HexText hex)
    (hn : Prints popen ["rev-list".toList, "HEAD".toList, "--count".toList] (toString n).toList) :
    piecesFromVcs (runCommand popen ["git".toList]) pre =
      .ok ⟨full, full.take 7, none, dirty, some none, some n, some (day ++ "T".toList ++ time ++ zone)⟩ := by
  obtain ⟨dir, hdir⟩ := hc.gitDir
  have g0 : (runCommand popen ["git".toList] argsGitDir).2 = some 0 := congrArg Prod.snd (gitOf_prints hdir)
  have hdc := (dirty_printable hh.printable dirty).clean
  have g1 : (runCommand popen ["git".toList] (argsDescribe pre)).1 = some
      (hex ++ (if dirty then "-dirty".toList else [])) :=
    congrArg Prod.fst (gitOf_clean hc.describe hdc)
  have g2 : (runCommand popen ["git".toList] argsHead).1 = some full :=
    congrArg Prod.fst (gitOf_clean hc.head hc.hex.printable.clean)
  have g3 : (runCommand popen ["git".toList] argsDate).1 = some
      (day ++ " ".toList ++ time ++ " ".toList ++ zone) :=
    congrArg Prod.fst (gitOf_clean hc.date (date_clean hc.day hc.zone))
  have g4 : (runCommand popen ["git".toList] argsCount).1 = some (decText n) := by
    rw [toString_toList] at hn
    exact congrArg Prod.fst (gitOf_clean hn (decText_num n).printable.clean)
  have hsuf := dirty_suffix (b := []) hh dirty
  rw [List.nil_append] at hsuf
  have hno : '-' ∉ hex := fun hm => (hex_lt (hh.2 _ hm)).2.1 rfl
  unfold piecesFromVcs
  rw [if_neg (by rw [g0]; simp)]
  simp only [g1, g2, strip_clean hdc, strip_clean hc.hex.printable.clean, hsuf]
  rw [drop_dirty, if_neg hno]
  simp only [g4, intOf_decText, commitDate, g3, isoDate_eq hc.day hc.time hc.zone]

/-- **C116.** Output that contains a hyphen but is not of the form `TAG-NUM-gHEX[-dirty]` leads to the
version `unknown` with an error message, in every style. -/
theorem C116_unreadable {git : List Text → Option Text × Option Int} {pre out full s style : Text}
    {dirty : Bool} (h0 : (git ["rev-parse".toList, "--git-dir".toList]).2 = some 0)
    (h1 : (git ["describe".toList, "--tags".toList, "--dirty".toList, "--always".toList, "--long".toList,
      "--match".toList, pre ++ "*".toList]).1 = some out)
    (h2 : (git ["rev-parse".toList, "HEAD".toList]).1 = some full)
    (hs : Clean out ∧ out = s ++ (if dirty then "-dirty".toList else []) ∧
      (dirty = false → ¬ "-dirty".toList <:+ s)) (hy : '-' ∈ s)
    (hbad : ∀ t d h, Num d → HexText h → t ≠ [] → '\n' ∉ t →
      s ≠ t ++ "-".toList ++ d ++ "-g".toList ++ h ∧ s ≠ t ++ "-".toList ++ d ++ "-g".toList ++ h ++ "\n".toList) :
    ∃ p v e, piecesFromVcs git pre = .ok p ∧ render p style = .ok v ∧ v.version = "unknown".toList ∧
      v.error = some e ∧ e ≠ [] := by
  obtain ⟨hcl, rfl, hd⟩ := hs
  have hsuf : "-dirty".toList.isSuffixOf (s ++ (if dirty then "-dirty".toList else [])) = dirty := by
    cases dirty with
    | true => rw [List.isSuffixOf_iff_suffix]; exact ⟨s, rfl⟩
    | false =>
      rw [Bool.eq_false_iff]
      intro hx
      rw [List.isSuffixOf_iff_suffix] at hx
      exact hd rfl (by simpa using hx)
  have hm : matchDescribe s = none := by
    cases hm : matchDescribe s with
    | none => rfl
    | some r =>
      obtain ⟨t, d, h⟩ := r
      rw [C116_regex] at hm
      obtain ⟨⟨b, rfl, hb⟩, ht, hn, hd, hh⟩ := hm
      rcases hb with hb | hb
      · exact absurd hb (hbad t d h hd hh ht hn).1
      · exact absurd hb (hbad t d h hd hh ht hn).2
  have e0 : (git argsGitDir).2 = some 0 := h0
  have e1 : (git (argsDescribe pre)).1 = some (s ++ (if dirty then "-dirty".toList else [])) := h1
  have e2 : (git argsHead).1 = some full := h2
  refine ⟨⟨strip full, (strip full).take 7, some ("unable to parse git-describe output: '".toList ++
    (s ++ (if dirty then "-dirty".toList else [])) ++ ['\'']), dirty, none, none, none⟩,
    ⟨"unknown".toList, some (strip full), none, some ("unable to parse git-describe output: '".toList ++
    (s ++ (if dirty then "-dirty".toList else [])) ++ ['\'']), none⟩, _, ?_, rfl, rfl, rfl, ?_⟩
  · unfold piecesFromVcs
    rw [if_neg (by rw [e0]; simp)]
    simp only [e1, e2, strip_clean hcl, hsuf]
    rw [drop_dirty, if_pos hy]
    simp only [hm]
  · simp

/-- A computer with a checkout of an untagged commit with changed files in every directory. -/
def untaggedRepo : Text → List Text → Proc := fun _ args =>
  if args = ["rev-parse".toList, "--git-dir".toList] then .ran ".git\n".toList 0
  else if args.head? = some "describe".toList then .ran "12ab-dirty\n".toList 0
  else if args = ["rev-parse".toList, "HEAD".toList] then .ran "12abcd34\n".toList 0
  else if args.head? = some "rev-list".toList then .ran "105\n".toList 0
  else if args.head? = some "show".toList then .ran "2019-10-14 09:30:00 +0200\n".toList 0
  else .ran [] 128

/-- Non-vacuity of `C116_untagged`. -/
example : piecesFromVcs (runCommand untaggedRepo ["git".toList]) "ver-".toList =
    .ok ⟨"12abcd34".toList, "12abcd3".toList, none, true, some none, some 105,
      some "2019-10-14T09:30:00+0200".toList⟩ :=
  C116_untagged (hex := "12ab".toList) (n := 105) (dirty := true) (day := "2019-10-14".toList)
    (time := "09:30:00".toList) (zone := "+0200".toList)
    ⟨⟨".git".toList, rfl⟩, rfl, rfl, rfl, ⟨by decide, by decide⟩, ⟨by decide, by decide⟩,
      ⟨by decide, by decide⟩, ⟨by decide, by decide⟩⟩ ⟨by decide, by decide⟩ rfl

/-- Non-vacuity of `C116_unreadable`: the output `a-b`. -/
example : ∃ p v e, piecesFromVcs (fun _ => (some "a-b".toList, some 0)) [] = .ok p ∧ render p [] = .ok v ∧
    v.version = "unknown".toList ∧ v.error = some e ∧ e ≠ [] := by
  refine C116_unreadable (s := "a-b".toList) (dirty := false) rfl rfl rfl
    ⟨⟨by decide, by decide, by decide⟩, rfl, fun _ => by decide⟩ (by decide) fun t d h hd hh ht hn => ?_
  have hg : 'g' ∉ "a-b".toList := by decide
  exact ⟨fun e => hg (by rw [e]; simp), fun e => hg (by rw [e]; simp)⟩

/-! ### C117 -/

section C117
variable {p : Pieces} {tag : Text} {n : Nat}

lemma truthy_some {tag : Text} (h : tag ≠ []) : truthy (some tag) = some tag := by
  obtain ⟨c, t, rfl⟩ := List.exists_cons_of_ne_nil h
  rfl

lemma renderPep440_tagged (ht : p.closestTag = some (some tag)) (hn : p.distance = some n) (hne : tag ≠ []) :
    renderPep440 p = .ok (if n ≠ 0 ∨ p.dirty = true then
      tag ++ (if '+' ∈ tag then ['.'] else ['+']) ++ stateText n p.short p.dirty else tag) := by
  unfold renderPep440 getTag getDistance plusOrDot
  simp only [ht, hn, bind, Except.bind, truthy_some hne, pure, Except.pure]
  split_ifs with h1 h2 h3 <;> simp_all [stateText]

lemma render_ok {v style : Text} (he : p.error = none) (h : renderStyle style p = .ok v) :
    render p style = .ok ⟨v, some p.long, some p.dirty, none, p.date⟩ := by
  unfold render
  rw [he]
  simp [truthy, h, bind, Except.bind, pure, Except.pure]

/-- **C117.** If the tag is a version by PEP 440, with or without local part, so is the version rendered in
the default style. -/
theorem C117_pep440 (he : p.error = none) (ht : p.closestTag = some (some tag)) (hn : p.distance = some n)
    (hh : HexText p.short) (hv : Pep440 tag) :
    ∃ v, render p [] = .ok v ∧ render p "default".toList = .ok v ∧ render p "pep440".toList = .ok v ∧
      Pep440 v.version := by
  have hne : tag ≠ [] := by
    obtain ⟨c, s, rfl, _⟩ := pep440_head hv
    simp
  have hr := renderPep440_tagged ht hn hne
  refine ⟨_, render_ok he hr, render_ok he hr, render_ok he hr, ?_⟩
  simp only
  split_ifs with h1 h2
  · rcases hv with hv | ⟨q, l, hq, hl, rfl⟩
    · exact absurd h2 (public_no_plus hv)
    · refine Or.inr ⟨q, l ++ ".".toList ++ stateText n p.short p.dirty, hq, local_append hl hh, ?_⟩
      simp
  · rcases hv with hv | ⟨q, l, hq, hl, rfl⟩
    · exact Or.inr ⟨tag, stateText n p.short p.dirty, hv, stateText_local hh, by simp⟩
    · exact absurd (by simp) h2
  · exact hv

/-- **C117.** If the tag is a version without post-release, development and local part, the version is one
by PEP 440 in all four such styles. -/
theorem C117_release (he : p.error = none) (ht : p.closestTag = some (some tag)) (hn : p.distance = some n)
    (hh : HexText p.short) (hv : Base tag) :
    ∀ style ∈ ["pep440".toList, "pep440-pre".toList, "pep440-post".toList, "pep440-old".toList],
      ∃ v, render p style = .ok v ∧ Pep440 v.version := by
  have hne : tag ≠ [] := by
    obtain ⟨c, s, rfl, _⟩ := base_head hv
    simp
  have hnp : '+' ∉ tag := public_no_plus (public_of_base hv)
  intro style hs
  simp only [List.mem_cons, List.not_mem_nil, or_false] at hs
  rcases hs with rfl | rfl | rfl | rfl
  · obtain ⟨v, _, _, h, hp⟩ := C117_pep440 he ht hn hh (Or.inl (public_of_base hv))
    exact ⟨v, h, hp⟩
  · have hr : renderStyle "pep440-pre".toList p =
        .ok (if n ≠ 0 then tag ++ (".post.dev".toList ++ decText n) else tag) := by
      have : renderStyle "pep440-pre".toList p = renderPre p := rfl
      rw [this]
      unfold renderPre getTag getDistance
      simp only [ht, hn, bind, Except.bind, truthy_some hne, pure, Except.pure]
    refine ⟨_, render_ok he hr, Or.inl ?_⟩
    simp only
    split_ifs with h1
    · exact public_dev hv n
    · exact public_of_base hv
  · have hr : renderStyle "pep440-post".toList p = .ok (if n ≠ 0 ∨ p.dirty = true then
        tag ++ (".post".toList ++ decText n) ++ (if p.dirty then ".dev0".toList else []) ++ "+".toList ++
          'g' :: p.short else tag) := by
      have : renderStyle "pep440-post".toList p = renderPost p := rfl
      rw [this]
      unfold renderPost getTag getDistance plusOrDot
      simp only [ht, hn, bind, Except.bind, truthy_some hne, pure, Except.pure, if_neg hnp]
      split_ifs <;> simp_all
    refine ⟨_, render_ok he hr, ?_⟩
    simp only
    split_ifs with h1 h2
    · exact Or.inr ⟨_, _, public_post hv n true, .one (gHex_alnum hh), by simp⟩
    · exact Or.inr ⟨_, _, public_post hv n false, .one (gHex_alnum hh), by simp⟩
    · exact Or.inl (public_of_base hv)
  · have hr : renderStyle "pep440-old".toList p = .ok (if n ≠ 0 ∨ p.dirty = true then
        tag ++ (".post".toList ++ decText n) ++ (if p.dirty then ".dev0".toList else []) else tag) := by
      have : renderStyle "pep440-old".toList p = renderOld p := rfl
      rw [this]
      unfold renderOld getTag getDistance
      simp only [ht, hn, bind, Except.bind, truthy_some hne, pure, Except.pure]
      split_ifs <;> simp_all
    refine ⟨_, render_ok he hr, Or.inl ?_⟩
    simp only
    split_ifs with h1 h2
    · simpa using public_post hv n true
    · simpa using public_post hv n false
    · exact public_of_base hv

/-- **C117.** Without a tag the versions of these styles are also ones by PEP 440. -/
theorem C117_untagged (he : p.error = none) (ht : p.closestTag = some none) (hn : p.distance = some n)
    (hh : HexText p.short) :
    ∀ style ∈ ["pep440".toList, "pep440-pre".toList, "pep440-post".toList, "pep440-old".toList],
      ∃ v, render p style = .ok v ∧ Pep440 v.version := by
  intro style hs
  simp only [List.mem_cons, List.not_mem_nil, or_false] at hs
  rcases hs with rfl | rfl | rfl | rfl
  · have hr : renderStyle "pep440".toList p =
        .ok ("0".toList ++ "+".toList ++ ("untagged".toList ++ ".".toList ++ stateText n p.short p.dirty)) := by
      have : renderStyle "pep440".toList p = renderPep440 p := rfl
      rw [this]
      unfold renderPep440 getTag getDistance
      simp only [ht, hn, bind, Except.bind, truthy, pure, Except.pure]
      split_ifs <;> simp_all [stateText]
    exact ⟨_, render_ok he hr, Or.inr ⟨_, _, public_of_base base_zero,
      local_append (.one ⟨by decide, by decide⟩) hh, rfl⟩⟩
  · have hr : renderStyle "pep440-pre".toList p = .ok ("0".toList ++ (".post.dev".toList ++ decText n)) := by
      have : renderStyle "pep440-pre".toList p = renderPre p := rfl
      rw [this]
      unfold renderPre getTag getDistance
      simp only [ht, hn, bind, Except.bind, truthy, pure, Except.pure]
      simp
    exact ⟨_, render_ok he hr, Or.inl (public_dev base_zero n)⟩
  · have hr : renderStyle "pep440-post".toList p = .ok ("0".toList ++ (".post".toList ++ decText n) ++
        (if p.dirty then ".dev0".toList else []) ++ "+".toList ++ 'g' :: p.short) := by
      have : renderStyle "pep440-post".toList p = renderPost p := rfl
      rw [this]
      unfold renderPost getTag getDistance
      simp only [ht, hn, bind, Except.bind, truthy, pure, Except.pure]
      split_ifs <;> simp_all
    exact ⟨_, render_ok he hr, Or.inr ⟨_, _, public_post base_zero n p.dirty, .one (gHex_alnum hh), rfl⟩⟩
  · have hr : renderStyle "pep440-old".toList p = .ok ("0".toList ++ (".post".toList ++ decText n) ++
        (if p.dirty then ".dev0".toList else [])) := by
      have : renderStyle "pep440-old".toList p = renderOld p := rfl
      rw [this]
      unfold renderOld getTag getDistance
      simp only [ht, hn, bind, Except.bind, truthy, pure, Except.pure]
      split_ifs <;> simp_all
    exact ⟨_, render_ok he hr, Or.inl (public_post base_zero n p.dirty)⟩

lemma state_inj {n n' : Nat} {h h' : Text} {d d' : Bool} (hh : HexText h) (hh' : HexText h')
    (e : stateText n h d = stateText n' h' d') : n = n' ∧ h = h' ∧ d = d' := by
  have nodot : ∀ {s : Text}, HexText s → '.' ∉ s := by
    intro s hs hm
    have : ∀ c ∈ "0123456789abcdef".toList, c ≠ '.' := by decide
    exact this _ (hs.2 _ hm) rfl
  have nodot' : ∀ n, '.' ∉ decText n := fun n hm => absurd ((decText_num n).2 _ hm) (by decide)
  have e1 : decText n ++ '.' :: ('g' :: h ++ (if d then ".dirty".toList else [])) =
      decText n' ++ '.' :: ('g' :: h' ++ (if d' then ".dirty".toList else [])) := by
    simpa [stateText] using e
  obtain ⟨h1, h2⟩ := first_char (nodot' n) (nodot' n') e1
  refine ⟨decText_inj h1, ?_⟩
  have h3 : h ++ (if d then ".dirty".toList else []) = h' ++ (if d' then ".dirty".toList else []) := by
    simpa using h2
  cases d <;> cases d'
  · exact ⟨by simpa using h3, rfl⟩
  · exfalso
    simp only [Bool.false_eq_true, if_false, List.append_nil, if_true] at h3
    exact nodot hh (by rw [h3]; simp)
  · exfalso
    simp only [Bool.false_eq_true, if_false, List.append_nil, if_true] at h3
    exact nodot hh' (by rw [← h3]; simp)
  · exact ⟨by simpa using h3, rfl⟩

/-- **C117.** Versions of the default style tell states of the repository apart: with tags that contain no
`+`, equal versions have the same tag, the same number of commits since then and the same changed files,
and belong to the same commit unless both are exactly the tag. -/
theorem C117_injective {p' : Pieces} {tag' : Text} {n' : Nat} (he : p.error = none) (he' : p'.error = none)
    (ht : p.closestTag = some (some tag)) (ht' : p'.closestTag = some (some tag'))
    (hn : p.distance = some n) (hn' : p'.distance = some n') (hh : HexText p.short) (hh' : HexText p'.short)
    (hne : tag ≠ []) (hne' : tag' ≠ []) (hp : '+' ∉ tag) (hp' : '+' ∉ tag') {v v' : Versions}
    (hv : render p "pep440".toList = .ok v) (hv' : render p' "pep440".toList = .ok v')
    (e : v.version = v'.version) :
    tag = tag' ∧ n = n' ∧ p.dirty = p'.dirty ∧ (n ≠ 0 ∨ p.dirty = true → p.short = p'.short) := by
  have hr := render_ok (style := "pep440".toList) he (renderPep440_tagged ht hn hne)
  have hr' := render_ok (style := "pep440".toList) he' (renderPep440_tagged ht' hn' hne')
  rw [hr] at hv
  rw [hr'] at hv'
  injection hv with hv
  injection hv' with hv'
  subst hv hv'
  simp only [if_neg hp, if_neg hp'] at e
  have zero : ∀ {n : Nat} {d : Bool}, ¬ (n ≠ 0 ∨ d = true) → n = 0 ∧ d = false := by
    intro n d h
    simpa using h
  split_ifs at e with h1 h2 h2
  · have e' : tag ++ '+' :: stateText n p.short p.dirty = tag' ++ '+' :: stateText n' p'.short p'.dirty := by
      simpa using e
    obtain ⟨h3, h4⟩ := first_char hp hp' e'
    obtain ⟨h5, h6, h7⟩ := state_inj hh hh' h4
    exact ⟨h3, h5, h7, fun _ => h6⟩
  · exact absurd (by rw [← e]; simp) hp'
  · exact absurd (by rw [e]; simp) hp
  · obtain ⟨a, b⟩ := zero h1
    obtain ⟨a', b'⟩ := zero h2
    exact ⟨e, by rw [a, a'], by rw [b, b'], fun h => absurd h h1⟩

end C117

/-- **C117.** The style `git-describe-long` prints what `git describe` printed, up to the prefix of the
tag. -/
theorem C117_describe {popen : Text → List Text → Proc} {pre tag hex full day time zone : Text} {n : Nat}
    {dirty : Bool} (hc : Checkout popen pre (describeTagged (pre ++ tag) n hex dirty) full day time zone)
    (ht : Printable (pre ++ tag)) (hh : HexText hex) (hne : tag ≠ []) :
    ∃ p v, piecesFromVcs (runCommand popen ["git".toList]) pre = .ok p ∧
      render p "git-describe-long".toList = .ok v ∧ v.version = describeTagged tag n hex dirty ∧
      v.full = some full ∧ v.dirty = some dirty ∧ v.date = some (day ++ "T".toList ++ time ++ zone) := by
  refine ⟨_, ⟨describeTagged tag n hex dirty, some full, some dirty, none,
    some (day ++ "T".toList ++ time ++ zone)⟩, C116_tagged hc ht hh, ?_, rfl, rfl, rfl, rfl⟩
  refine render_ok rfl ?_
  have : ∀ p, renderStyle "git-describe-long".toList p = renderDescribeLong p := fun _ => rfl
  rw [this, describe_eq]
  unfold renderDescribeLong getTag getDistance
  simp only [bind, Except.bind, truthy_some hne, pure, Except.pure]
  split_ifs <;> simp_all

/-- Non-vacuity for C117: a release `1.0rc1`, three commits later. -/
example : ∃ v, render ⟨"abc123".toList, "abc12".toList, none, true, some (some "1.0rc1".toList), some 3, none⟩
      "pep440".toList = .ok v ∧ Pep440 v.version ∧ v.version = "1.0rc1+3.gabc12.dirty".toList := by
  have hb : Base "1.0rc1".toList := by
    refine ⟨[], "1.0".toList, "rc1".toList, rfl, Or.inl rfl, ?_,
      Or.inr ⟨"rc".toList, by simp, "1".toList, ⟨by decide, by decide⟩, by decide⟩⟩
    exact Release.more (r := "1".toList) (s := "0".toList) (.one ⟨by decide, by decide⟩) ⟨by decide, by decide⟩
  obtain ⟨v, hv, hp⟩ := C117_release (p := ⟨"abc123".toList, "abc12".toList, none, true,
    some (some "1.0rc1".toList), some 3, none⟩) rfl rfl rfl ⟨by decide, by decide⟩ hb "pep440".toList (by simp)
  refine ⟨v, hv, hp, ?_⟩
  have h2 : render ⟨"abc123".toList, "abc12".toList, none, true, some (some "1.0rc1".toList), some 3, none⟩
      "pep440".toList = .ok ⟨"1.0rc1+3.gabc12.dirty".toList, some "abc123".toList, some true, none, none⟩ := rfl
  rw [h2] at hv
  injection hv with hv
  rw [← hv]

/-! ### C118 -/

lemma keywords_unexpanded (pre : Text) : fromKeywords pkgKeywords pre = .error .notThisMethod := by
  unfold fromKeywords
  simp only
  rw [if_pos (by decide)]

lemma noGit_pieces {popen : Text → List Text → Proc} (h : NoGit popen) (pre : Text) :
    piecesFromVcs (runCommand popen ["git".toList]) pre = .error .notThisMethod := by
  have hne : (runCommand popen ["git".toList] argsGitDir).2 ≠ some 0 := by
    rcases h with h | h | ⟨out, rc, h, hrc⟩
    · have : popen "git".toList argsGitDir = .enoent := h
      simp only [runCommand, this]
      simp
    · have : popen "git".toList argsGitDir = .failed := h
      simp only [runCommand, this]
      simp
    · have : popen "git".toList argsGitDir = .ran out rc := h
      simp only [runCommand, this, if_pos hrc]
      simpa using hrc
  unfold piecesFromVcs
  rw [if_pos hne]

lemma dirname_eq {r name : Text} (hr : r ≠ []) (hl : r.getLast? ≠ some '/') (hn : '/' ∉ name) :
    dirname (r ++ '/' :: name) = r := by
  have hx : ∀ c ∈ name.reverse, (decide (c ≠ '/')) = true := by
    intro c hc
    simp only [decide_eq_true_eq]
    rintro rfl
    exact hn (by simpa using hc)
  have h1 : (r ++ '/' :: name).reverse.dropWhile (· ≠ '/') = '/' :: r.reverse := by
    have : (r ++ '/' :: name).reverse = name.reverse ++ '/' :: r.reverse := by simp
    rw [this, List.dropWhile_append_of_pos (p := fun c => decide (c ≠ '/')) hx]
    simp
  have h2 : (r.reverse).head? ≠ some '/' := by rwa [List.head?_reverse]
  have h3 : r.reverse ≠ [] := by simpa using hr
  unfold dirname
  simp only [h1]
  obtain ⟨c, s, hcs⟩ := List.exists_cons_of_ne_nil h3
  rw [hcs] at h2
  have hc : c ≠ '/' := by simpa using h2
  rw [hcs, if_neg (by simp [hc])]
  simp only [List.dropWhile_cons, hc, decide_true, if_true, decide_false, Bool.false_eq_true, if_false]
  rw [← hcs, List.reverse_reverse]

lemma basename_eq {r name : Text} (hn : '/' ∉ name) : basename (r ++ '/' :: name) = name := by
  have hx : ∀ c ∈ name.reverse, (decide (c ≠ '/')) = true := by
    intro c hc
    simp only [decide_eq_true_eq]
    rintro rfl
    exact hn (by simpa using hc)
  unfold basename
  have : (r ++ '/' :: name).reverse = name.reverse ++ '/' :: r.reverse := by simp
  rw [this, List.takeWhile_append_of_pos (p := fun c => decide (c ≠ '/')) hx]
  simp

/-- The file `_version.py` of the package in the directory `root`. -/
def versionFile (root : Text) : Text := root ++ "/bayesian_decision_tree/_version.py".toList

lemma root_eq {root : Text} (hr : root ≠ []) (hl : root.getLast? ≠ some '/') :
    (pkgConfig.versionfileSource.splitOn '/').foldl (fun r _ => dirname r) (versionFile root) = root := by
  have e : pkgConfig.versionfileSource.splitOn '/' = ["hadoop_utils".toList, "_version.py".toList] := by decide
  have e2 : versionFile root = (root ++ '/' :: "bayesian_decision_tree".toList) ++ '/' :: "_version.py".toList := by
    simp [versionFile]
  rw [e, e2]
  simp only [List.foldl_cons, List.foldl_nil]
  rw [dirname_eq (by simp) (by
    have : root ++ '/' :: "bayesian_decision_tree".toList =
      (root ++ '/' :: "bayesian_decision_tre".toList) ++ ['e'] := by simp
    rw [this, List.getLast?_concat]; decide) (by decide), dirname_eq hr hl (by decide)]

/-- What the package reports as its version in a directory that belongs to a repository, `n` commits after the
nearest tag. -/
def reported (tag : Text) (n : Nat) (hex : Text) (dirty : Bool) : Text :=
  if n ≠ 0 ∨ dirty = true then
    tag ++ (if '+' ∈ tag then ".".toList else "+".toList) ++ (toString n).toList ++ ".g".toList ++ hex ++
      (if dirty then ".dirty".toList else [])
  else tag

/-- **C118.** `__version__` is derived from the repository that contains the directory the package is
installed in, whatever project that repository is about, with the full name of its nearest tag. -/
theorem C118_package {popen : Text → Text → List Text → Proc} {root tag hex full day time zone : Text}
    {n : Nat} {dirty : Bool} (hr : root ≠ []) (hl : root.getLast? ≠ some '/')
    (hc : Checkout (popen root) [] (describeTagged tag n hex dirty) full day time zone)
    (ht : Printable tag) (hh : HexText hex) :
    getVersions pkgKeywords popen false (some (versionFile root)) =
      .ok ⟨reported tag n hex dirty, some full, some dirty, none, some (day ++ "T".toList ++ time ++ zone)⟩ := by
  have hp := C116_tagged (pre := []) (tag := tag) hc ht hh
  unfold getVersions
  simp only
  rw [root_eq hr hl]
  unfold versionsAt
  rw [keywords_unexpanded]
  simp only [orElse]
  have hg : runCommand (popen root) (gitNames false) = runCommand (popen root) ["git".toList] := rfl
  have hpre : pkgConfig.tagPrefix = [] := rfl
  rw [hg, hpre, hp]
  simp only [bind, Except.bind]
  have hrend := renderPep440_tagged (p := ⟨full, hex, none, dirty, some (some tag), some n,
    some (day ++ "T".toList ++ time ++ zone)⟩) rfl rfl ht.1
  have hst : pkgConfig.style = [] := rfl
  rw [hst, render_ok (style := []) rfl hrend]
  simp only [reported, toString_toList]
  congr 2
  split_ifs <;> simp_all [stateText]

/-- **C118.** In a checkout whose nearest tag is `ver-V` with a release version `V`, `setup.py` gives the
distribution a version by PEP 440, `V` on the tag itself; `__version__` begins with `ver-`, is never a version
by PEP 440 and never the version of the distribution. -/
theorem C118_never {popen : Text → Text → List Text → Proc} {root v hex full day time zone : Text} {n : Nat}
    {dirty : Bool} (hr : root ≠ []) (hl : root.getLast? ≠ some '/')
    (hc : Checkout (popen root) [] (describeTagged ("ver-".toList ++ v) n hex dirty) full day time zone)
    (hc' : Checkout (popen root) "ver-".toList (describeTagged ("ver-".toList ++ v) n hex dirty) full day time zone)
    (hv : Base v) (hh : HexText hex) :
    ∃ a b, getVersions pkgKeywords popen false (some (versionFile root)) = .ok a ∧
      setupVersions pkgKeywords popen false root = .ok b ∧ Pep440 b.version ∧ (n = 0 → b.version = v) ∧
      "ver-".toList <+: a.version ∧ ¬ Pep440 a.version ∧ a.version ≠ b.version := by
  have hpr : Printable ("ver-".toList ++ v) := by
    refine ⟨by simp, fun c hcm => ?_⟩
    rcases List.mem_append.1 hcm with h | h
    · have : ∀ c ∈ "ver-".toList, 32 < c.toNat := by decide
      exact this c h
    · rcases base_chars hv c h with h | h | rfl | rfl
      · exact (digit_lt h).1
      · have : 97 ≤ c.toNat := by
          simp only [Char.isLower, Bool.and_eq_true, decide_eq_true_eq] at h
          exact h.1
        omega
      · decide
      · decide
  have ha := C118_package hr hl hc hpr hh
  have hp := C116_tagged (pre := "ver-".toList) (tag := v) hc' hpr hh
  obtain ⟨b, hb, hpep⟩ := C117_release (p := ⟨full, hex, none, dirty, some (some v), some n,
    some (day ++ "T".toList ++ time ++ zone)⟩) rfl rfl rfl hh hv "pep440-pre".toList (by simp)
  have hset : setupVersions pkgKeywords popen false root = .ok b := by
    unfold setupVersions versionsAt
    rw [keywords_unexpanded]
    simp only [orElse]
    have hg : runCommand (popen root) (gitNames false) = runCommand (popen root) ["git".toList] := rfl
    have hpre : setupConfig.tagPrefix = "ver-".toList := rfl
    have hst : setupConfig.style = "pep440-pre".toList := rfl
    rw [hg, hpre, hp]
    simp only [bind, Except.bind]
    rw [hst, hb]
  have hvne : v ≠ [] := by
    obtain ⟨c, s, rfl, _⟩ := base_head hv
    simp
  have hpref : "ver-".toList <+: reported ("ver-".toList ++ v) n hex dirty := by
    unfold reported
    split_ifs <;> exact List.prefix_append _ _
  have hno : ¬ Pep440 (reported ("ver-".toList ++ v) n hex dirty) := by
    intro h
    obtain ⟨c, s, hcs, hd⟩ := pep440_head h
    obtain ⟨r, hr⟩ := hpref
    rw [hcs] at hr
    have : 'v' = c := by simpa using congrArg List.head? hr
    rw [← this] at hd
    exact absurd hd (by decide)
  refine ⟨_, b, ha, hset, hpep, ?_, hpref, hno, ?_⟩
  · rintro rfl
    have hrp : renderStyle "pep440-pre".toList ⟨full, hex, none, dirty, some (some v), some 0,
        some (day ++ "T".toList ++ time ++ zone)⟩ = .ok v := by
      have : ∀ p, renderStyle "pep440-pre".toList p = renderPre p := fun _ => rfl
      rw [this]
      unfold renderPre getTag getDistance
      simp only [bind, Except.bind, truthy_some hvne, pure, Except.pure]
      simp
    rw [render_ok rfl hrp] at hb
    injection hb with hb
    rw [← hb]
  · intro e
    simp only at e
    rw [e] at hno
    exact hno hpep

/-- A computer with a checkout of the release `ver-1.0` in every directory. -/
def oneRelease : Text → Text → List Text → Proc := fun _ _ args =>
  if args = ["rev-parse".toList, "--git-dir".toList] then .ran ".git\n".toList 0
  else if args.head? = some "describe".toList then .ran "ver-1.0-0-g12ab\n".toList 0
  else if args = ["rev-parse".toList, "HEAD".toList] then .ran "12abcd34\n".toList 0
  else if args.head? = some "show".toList then .ran "2019-10-14 09:30:00 +0200\n".toList 0
  else .ran [] 128

lemma oneRelease_checkout (root pre : Text) (hpre : pre = [] ∨ pre = "ver-".toList) :
    Checkout (oneRelease root) pre (describeTagged ("ver-".toList ++ "1.0".toList) 0 "12ab".toList false)
      "12abcd34".toList "2019-10-14".toList "09:30:00".toList "+0200".toList := by
  refine ⟨⟨".git".toList, rfl⟩, ?_, rfl, rfl, ⟨by decide, by decide⟩, ⟨by decide, by decide⟩,
    ⟨by decide, by decide⟩, ⟨by decide, by decide⟩⟩
  rcases hpre with rfl | rfl <;> rfl

/-- **C118** is false: on the commit tagged `ver-1.0` the distribution has the version `1.0`, while the
package reports `ver-1.0`, which is not a version. -/
theorem C118_refuted :
    ¬ ∀ (popen : Text → Text → List Text → Proc) (root : Text) (a b : Versions),
      getVersions pkgKeywords popen false (some (versionFile root)) = .ok a →
      setupVersions pkgKeywords popen false root = .ok b → a.version = b.version := by
  intro h
  have hb : Base "1.0".toList := base_of_release
    (Release.more (r := "1".toList) (s := "0".toList) (.one ⟨by decide, by decide⟩) ⟨by decide, by decide⟩)
  obtain ⟨a, b, ha, hb, _, _, _, _, hne⟩ := C118_never (root := "/home".toList) (by decide) (by decide)
    (oneRelease_checkout "/home".toList [] (Or.inl rfl))
    (oneRelease_checkout "/home".toList "ver-".toList (Or.inr rfl)) hb ⟨by decide, by decide⟩
  exact hne (h _ _ _ _ ha hb)

/-- **C118** outside of repositories: unless one of the three directories above the package is called
`hadoop-utils-…`, the package reports the version `0+unknown`. What is missing: the version the distribution was
built with, which is not stored anywhere. -/
theorem C118_outside_partial {popen : Text → Text → List Text → Proc} {root : Text} (hr : root ≠ [])
    (hl : root.getLast? ≠ some '/') (hg : NoGit (popen root))
    (h0 : ¬ "hadoop-utils-".toList <+: basename root)
    (h1 : ¬ "hadoop-utils-".toList <+: basename (dirname root))
    (h2 : ¬ "hadoop-utils-".toList <+: basename (dirname (dirname root))) :
    getVersions pkgKeywords popen false (some (versionFile root)) =
      .ok ⟨"0+unknown".toList, none, none, some "unable to compute version".toList, none⟩ := by
  have hf : ∀ {s : Text}, ¬ "hadoop-utils-".toList <+: s → ("hadoop-utils-".toList.isPrefixOf s) = false := by
    intro s hs
    rw [Bool.eq_false_iff]
    intro h
    exact hs (List.isPrefixOf_iff_prefix.1 h)
  unfold getVersions
  simp only
  rw [root_eq hr hl]
  unfold versionsAt
  rw [keywords_unexpanded]
  simp only [orElse]
  have hg' : runCommand (popen root) (gitNames false) = runCommand (popen root) ["git".toList] := rfl
  rw [hg', noGit_pieces hg]
  simp only [bind, Except.bind]
  have hpp : pkgConfig.parentdirPrefix = "hadoop-utils-".toList := rfl
  rw [hpp, if_neg (by decide)]
  simp only [fromParentdir, hf h0, hf h1, hf h2, Bool.false_eq_true, if_false]
  rfl

/-- Non-vacuity: installed where there is no `git`. -/
example : getVersions pkgKeywords (fun _ _ _ => .enoent) false
      (some (versionFile "/venv/lib/python3.7/site-packages".toList)) =
    .ok ⟨"0+unknown".toList, none, none, some "unable to compute version".toList, none⟩ :=
  C118_outside_partial (by decide) (by decide) (Or.inl rfl) (by decide) (by decide) (by decide)

/-- **C118.** Built in an unpacked archive `bayesian_decision_tree-V` outside of any repository, the
distribution gets the version `-V`, which is not a version by PEP 440. -/
theorem C118_archive {popen : Text → Text → List Text → Proc} {dir v : Text} (hv : '/' ∉ v)
    (hg : NoGit (popen (dir ++ "/bayesian_decision_tree-".toList ++ v))) :
    ∃ b, setupVersions pkgKeywords popen false (dir ++ "/bayesian_decision_tree-".toList ++ v) = .ok b ∧
      b.version = "-".toList ++ v ∧ ¬ Pep440 b.version := by
  have hbn : basename (dir ++ "/bayesian_decision_tree-".toList ++ v) =
      "bayesian_decision_tree".toList ++ ("-".toList ++ v) := by
    have e : dir ++ "/bayesian_decision_tree-".toList ++ v =
        dir ++ '/' :: ("bayesian_decision_tree".toList ++ ("-".toList ++ v)) := by simp
    rw [e, basename_eq]
    simp only [List.mem_append, not_or]
    exact ⟨by decide, by decide, hv⟩
  refine ⟨⟨"-".toList ++ v, none, some false, none, none⟩, ?_, rfl, ?_⟩
  · unfold setupVersions versionsAt
    rw [keywords_unexpanded]
    simp only [orElse]
    have hg' : ∀ r, runCommand (popen r) (gitNames false) = runCommand (popen r) ["git".toList] := fun _ => rfl
    rw [hg', noGit_pieces hg]
    simp only [bind, Except.bind]
    have hpp : setupConfig.parentdirPrefix = "bayesian_decision_tree".toList := rfl
    rw [hpp, if_neg (by decide)]
    unfold fromParentdir
    rw [hbn, if_pos (by rw [List.isPrefixOf_iff_prefix]; exact ⟨_, rfl⟩), List.drop_left]
  · intro h
    obtain ⟨c, s, hcs, hd⟩ := pep440_head h
    have : '-' = c := by simpa using congrArg List.head? hcs
    rw [← this] at hd
    exact absurd hd (by decide)

example : ∃ b, setupVersions pkgKeywords (fun _ _ _ => .enoent) false
      ("/tmp".toList ++ "/bayesian_decision_tree-".toList ++ "1.0".toList) = .ok b ∧
    b.version = "-1.0".toList ∧ ¬ Pep440 b.version :=
  C118_archive (by decide) (Or.inl rfl)

/-! ### C119 -/

lemma pieces_cases {git : List Text → Option Text × Option Int} (pre : Text)
    (hd : (git argsDate).1 ≠ none) (hn : ∃ s n, (git argsCount).1 = some s ∧ intOf s = some n) :
    piecesFromVcs git pre = .error .notThisMethod ∨
      ∃ p, piecesFromVcs git pre = .ok p ∧
        ((∃ e, p.error = some e ∧ e ≠ []) ∨ ∃ t n, p.error = none ∧ p.closestTag = some t ∧ p.distance = some n) := by
  obtain ⟨d, hd⟩ := Option.ne_none_iff_exists'.1 hd
  obtain ⟨s, n, hs, hn⟩ := hn
  unfold piecesFromVcs
  split_ifs with h0
  · exact Or.inl rfl
  · cases h1 : (git (argsDescribe pre)).1 with
    | none => exact Or.inl rfl
    | some out =>
      cases h2 : (git argsHead).1 with
      | none => exact Or.inl rfl
      | some full =>
        right
        simp only
        generalize "-dirty".toList.isSuffixOf (strip out) = dirty
        generalize (if dirty = true then (strip out).take ((strip out).length - "-dirty".toList.length)
          else strip out) = body
        by_cases hy : '-' ∈ body
        · rw [if_pos hy]
          cases hm : matchDescribe body with
          | none => exact ⟨_, rfl, Or.inl ⟨_, rfl, by simp⟩⟩
          | some r =>
            obtain ⟨t, d', h⟩ := r
            obtain ⟨_, _, _, hd', _⟩ := (C116_regex _ _ _ _).1 hm
            have hi : intOf d' = some (Nat.ofDigitChars 10 d' 0) := by
              unfold intOf
              rw [if_pos ⟨hd'.1, List.all_eq_true.2 hd'.2⟩]
            simp only
            split_ifs with hp
            · exact ⟨_, rfl, Or.inl ⟨_, rfl, by simp⟩⟩
            · simp only [hi, commitDate, hd]
              exact ⟨_, rfl, Or.inr ⟨_, _, rfl, rfl, rfl⟩⟩
        · rw [if_neg hy]
          simp only [hs, hn, commitDate, hd]
          exact ⟨_, rfl, Or.inr ⟨_, _, rfl, rfl, rfl⟩⟩

/-- **C119**, the part that holds: the package can be imported, wherever it is and whatever the other commands print,
if `git show` and `git rev-list` do not fail and the latter prints a number. What is missing: repositories in
which one of these fails. -/
theorem C119_import_partial (kw : Keywords) {popen : Text → Text → List Text → Proc} (windows : Bool)
    (file : Option Text)
    (hd : ∀ cwd, (runCommand (popen cwd) (gitNames windows)
      ["show".toList, "-s".toList, "--format=%ci".toList, "HEAD".toList]).1 ≠ none)
    (hn : ∀ cwd, ∃ s n, (runCommand (popen cwd) (gitNames windows)
      ["rev-list".toList, "HEAD".toList, "--count".toList]).1 = some s ∧ intOf s = some n) :
    ∃ v, getVersions kw popen windows file = .ok v := by
  have hk : fromKeywords kw pkgConfig.tagPrefix = .error .notThisMethod ∨
      ∃ v, fromKeywords kw pkgConfig.tagPrefix = .ok v := by
    unfold fromKeywords
    simp only
    split_ifs
    · exact Or.inl rfl
    · split
      · exact Or.inr ⟨_, rfl⟩
      · exact Or.inr ⟨_, rfl⟩
  unfold getVersions
  cases file with
  | none =>
    simp only
    rcases hk with hk | ⟨v, hk⟩
    · rw [hk]; exact ⟨_, rfl⟩
    · rw [hk]; exact ⟨_, rfl⟩
  | some f =>
    simp only
    generalize (pkgConfig.versionfileSource.splitOn '/').foldl (fun r _ => dirname r) f = root
    unfold versionsAt
    rcases hk with hk | ⟨v, hk⟩
    · rw [hk]
      simp only [orElse]
      have hpar : ∀ k r, fromParentdir pkgConfig.parentdirPrefix k r = .error .notThisMethod ∨
          ∃ v, fromParentdir pkgConfig.parentdirPrefix k r = .ok v := by
        intro k
        induction k with
        | zero => exact fun _ => Or.inl rfl
        | succ k ih =>
          intro r
          unfold fromParentdir
          split_ifs
          · exact Or.inr ⟨_, rfl⟩
          · exact ih _
      rcases pieces_cases pkgConfig.tagPrefix (hd root) (hn root) with hp | ⟨p, hp, hcase⟩
      · rw [hp]
        simp only [bind, Except.bind]
        rw [if_neg (by decide)]
        rcases hpar 3 root with h | ⟨v, h⟩
        · rw [h]; exact ⟨_, rfl⟩
        · rw [h]; exact ⟨_, rfl⟩
      · rw [hp]
        simp only [bind, Except.bind]
        have hok : ∃ v, render p pkgConfig.style = .ok v := by
          rcases hcase with ⟨e, he, hne⟩ | ⟨t, n, he, ht, hdist⟩
          · unfold render
            rw [he, truthy_some hne]
            exact ⟨_, rfl⟩
          · have : ∃ r, renderPep440 p = .ok r := by
              unfold renderPep440 getTag getDistance plusOrDot
              cases t with
              | none =>
                simp only [ht, hdist, bind, Except.bind, truthy, pure, Except.pure]
                exact ⟨_, rfl⟩
              | some t =>
                cases t with
                | nil =>
                  simp only [ht, hdist, bind, Except.bind, truthy, pure, Except.pure]
                  exact ⟨_, rfl⟩
                | cons c t =>
                  simp only [ht, hdist, bind, Except.bind, truthy, pure, Except.pure]
                  split_ifs <;> exact ⟨_, rfl⟩
            obtain ⟨r, hr⟩ := this
            exact ⟨_, render_ok (style := []) he hr⟩
        obtain ⟨v, hv⟩ := hok
        rw [hv]
        exact ⟨_, rfl⟩
    · rw [hk]; exact ⟨_, rfl⟩

/-- `git` prints `12` whatever it is asked for; the commands in `bad` fail. -/
def brokenGit (bad : Text) : Text → Text → List Text → Proc := fun _ _ args =>
  if args.head? = some bad then .ran [] 128 else .ran "12\n".toList 0

/-- Non-vacuity: a `git` that answers everything. -/
example : ∃ v, getVersions pkgKeywords (brokenGit []) false (some (versionFile "/home".toList)) = .ok v :=
  C119_import_partial _ _ _ (fun _ => by simp [brokenGit, gitNames, runCommand])
    (fun _ => ⟨"12".toList, 12, rfl, rfl⟩)

/-- **C119** is false: importing the package raises `AttributeError` where `git show` fails and `TypeError`
where `git rev-list` does. -/
theorem C119_refuted :
    (¬ ∀ (popen : Text → Text → List Text → Proc) (root : Text),
      ∃ v, getVersions pkgKeywords popen false (some (versionFile root)) = .ok v) ∧
    getVersions pkgKeywords (brokenGit "show".toList) false (some (versionFile "/home".toList)) =
      .error .attributeError ∧
    getVersions pkgKeywords (brokenGit "rev-list".toList) false (some (versionFile "/home".toList)) =
      .error .typeError := by
  have h1 : getVersions pkgKeywords (brokenGit "show".toList) false (some (versionFile "/home".toList)) =
      .error .attributeError := rfl
  refine ⟨fun h => ?_, h1, rfl⟩
  obtain ⟨v, hv⟩ := h (brokenGit "show".toList) "/home".toList
  rw [h1] at hv
  exact absurd hv (by simp)

/-! ### C120 -/

lemma stripBy_wrapped {p : Char → Bool} {a b : Char} {s : Text} (ha : p a = true) (hb : p b = true) (hs : s ≠ [])
    (hp : ∀ c ∈ s, p c = false) : stripBy p (a :: s ++ [b]) = s := by
  have h1 : (a :: s ++ [b]).dropWhile p = s ++ [b] := by
    rw [List.cons_append, List.dropWhile_cons, if_pos ha]
    refine dropWhile_of_head fun c hc => ?_
    obtain ⟨d, t, rfl⟩ := List.exists_cons_of_ne_nil hs
    simp only [List.cons_append, List.head?_cons, Option.some.injEq] at hc
    exact hc ▸ hp d (by simp)
  unfold stripBy
  rw [h1, List.reverse_append]
  have : [b].reverse ++ s.reverse = b :: s.reverse := rfl
  rw [this, List.dropWhile_cons, if_pos hb, dropWhile_of_head, List.reverse_reverse]
  intro c hc
  rw [List.head?_reverse] at hc
  exact hp c (List.mem_of_mem_getLast? hc)

lemma strip_space {s : Text} (h : Clean s) : strip (' ' :: s) = s := by
  have : strip (' ' :: s) = strip s := by
    unfold strip stripBy
    rw [List.dropWhile_cons, if_pos (by decide)]
  rw [this, strip_clean h]

lemma commaList_split {refs : List Text} (hne : refs ≠ []) (hr : ∀ r ∈ refs, RefName r) :
    ((commaList refs).splitOn ',').map strip = refs ∧
      ((' ' :: commaList refs).splitOn ',').map strip = refs := by
  have hcl : ∀ r, RefName r → Clean r := fun r h => ⟨h.1, h.2.1, h.2.2.1⟩
  induction refs with
  | nil => exact absurd rfl hne
  | cons r rs ih =>
    have hr0 := hr r (by simp)
    have hcomma : ',' ∉ r := hr0.2.2.2.1
    have hcomma' : ',' ∉ ' ' :: r := by simpa using hcomma
    cases rs with
    | nil =>
      simp only [commaList]
      rw [List.splitOn_eq_singleton hcomma, List.splitOn_eq_singleton hcomma']
      exact ⟨by simp [strip_clean (hcl r hr0)], by simp [strip_space (hcl r hr0)]⟩
    | cons r' rs =>
      obtain ⟨_, ih2⟩ := ih (by simp) (fun x hx => hr x (by simp [hx]))
      have e : commaList (r :: r' :: rs) = r ++ ',' :: (' ' :: commaList (r' :: rs)) := by
        simp [commaList]
      have e' : ' ' :: (r ++ ',' :: (' ' :: commaList (r' :: rs))) =
        (' ' :: r) ++ ',' :: (' ' :: commaList (r' :: rs)) := rfl
      rw [e, e', List.splitOn_append_cons_self_of_not_mem hcomma,
        List.splitOn_append_cons_self_of_not_mem hcomma']
      constructor
      · rw [List.map_cons, ih2, strip_clean (hcl r hr0)]
      · rw [List.map_cons, ih2, strip_space (hcl r hr0)]

lemma commaList_ne {refs : List Text} (hne : refs ≠ []) (hr : ∀ r ∈ refs, RefName r) : commaList refs ≠ [] := by
  cases refs with
  | nil => exact absurd rfl hne
  | cons r rs =>
    have := (hr r (by simp)).1
    cases rs with
    | nil => simpa [commaList] using this
    | cons r' rs => simp [commaList]

lemma commaList_parens {refs : List Text} (hr : ∀ r ∈ refs, RefName r) :
    ∀ c ∈ commaList refs, c ≠ '(' ∧ c ≠ ')' := by
  have h0 : ∀ r, RefName r → ∀ c ∈ r, c ≠ '(' ∧ c ≠ ')' := by
    intro r h c hc
    exact ⟨fun e => h.2.2.2.2.1 (e ▸ hc), fun e => h.2.2.2.2.2 (e ▸ hc)⟩
  induction refs with
  | nil => simp [commaList]
  | cons r rs ih =>
    cases rs with
    | nil => simpa [commaList] using h0 r (hr r (by simp))
    | cons r' rs =>
      intro c hc
      have ih' := ih (fun x hx => hr x (by simp [hx]))
      simp only [commaList, List.mem_append] at hc
      rcases hc with (hc | hc) | hc
      · exact h0 r (hr r (by simp)) c hc
      · have : ∀ c ∈ ", ".toList, c ≠ '(' ∧ c ≠ ')' := by decide
        exact this c hc
      · exact ih' c hc

lemma refTags_decoration {refs : List Text} (hne : refs ≠ []) (hr : ∀ r ∈ refs, RefName r)
    (htag : ∃ t, "tag: ".toList ++ t ∈ refs) (t : Text) :
    t ∈ refTags (strip (decoration refs)) ↔ "tag: ".toList ++ t ∈ refs := by
  have hpar := commaList_parens hr
  have hs : strip (decoration refs) = '(' :: commaList refs ++ [')'] := by
    have hcl : Clean ('(' :: commaList refs ++ [')']) := by
      refine ⟨by simp, fun c hc => ?_, fun c hc => ?_⟩
      · simp only [List.cons_append, List.head?_cons, Option.some.injEq] at hc
        rw [← hc]; decide
      · rw [List.getLast?_append] at hc
        have : c = ')' := by simpa [eq_comm] using hc
        rw [this]; decide
    have e : decoration refs = ' ' :: ('(' :: commaList refs ++ [')']) := by simp [decoration]
    rw [e, strip_space hcl]
  have hb : stripBy (fun c => c = '(' || c = ')') ('(' :: commaList refs ++ [')']) = commaList refs := by
    refine stripBy_wrapped (by decide) (by decide) (commaList_ne hne hr) fun c hc => ?_
    have := hpar c hc
    simp [this.1, this.2]
  have hmem : ∀ t, t ∈ ((refs.filter fun r => "tag: ".toList.isPrefixOf r).map fun r =>
      r.drop "tag: ".toList.length) ↔ "tag: ".toList ++ t ∈ refs := by
    intro t
    simp only [List.mem_map, List.mem_filter, List.isPrefixOf_iff_prefix]
    constructor
    · rintro ⟨r, ⟨hr, q, rfl⟩, rfl⟩
      rwa [List.drop_left]
    · intro h
      exact ⟨_, ⟨h, t, rfl⟩, List.drop_left⟩
  unfold refTags
  rw [hs, hb]
  simp only [(commaList_split hne hr).1]
  obtain ⟨t0, ht0⟩ := htag
  rw [if_neg]
  · exact hmem t
  · intro h
    rw [List.isEmpty_iff] at h
    have := (hmem t0).2 ht0
    rw [h] at this
    exact absurd this (by simp)

/-- **C120.** In an archive made by `git archive` the version is the least tag of the commit (in the order of
the characters) among those with the prefix, without the prefix; if there is none it is `0+unknown`. -/
theorem C120_archive {kw : Keywords} {refs : List Text} {full day time zone : Text} (pre : Text)
    (hkw : kw.refnames = decoration refs) (hr : ∀ r ∈ refs, RefName r)
    (htag : ∃ t, "tag: ".toList ++ t ∈ refs) (hfull : kw.full = full) (hh : HexText full)
    (hdate : kw.date = day ++ " ".toList ++ time ++ " ".toList ++ zone) (hd : Printable day)
    (ht : Printable time) (hz : Printable zone) :
    (∃ r, "tag: ".toList ++ (pre ++ r) ∈ refs ∧
      (∀ t, "tag: ".toList ++ t ∈ refs → pre <+: t → pre ++ r ≤ t) ∧
      fromKeywords kw pre =
        .ok ⟨r, some full, some false, none, some (day ++ "T".toList ++ time ++ zone)⟩) ∨
    ((∀ t, "tag: ".toList ++ t ∈ refs → ¬ pre <+: t) ∧
      fromKeywords kw pre =
        .ok ⟨"0+unknown".toList, some full, some false, some "no suitable tags".toList, none⟩) := by
  have hne : refs ≠ [] := by
    rintro rfl
    obtain ⟨t, ht⟩ := htag
    exact absurd ht (by simp)
  have hmem := refTags_decoration hne hr htag
  have hexp : ("$Format".toList.isPrefixOf (strip kw.refnames)) = false := by
    rw [Bool.eq_false_iff]
    intro h
    rw [List.isPrefixOf_iff_prefix] at h
    obtain ⟨q, hq⟩ := h
    have hs : (strip kw.refnames).head? = some '(' := by
      rw [hkw]
      have e : decoration refs = ' ' :: '(' :: (commaList refs ++ [')']) := by simp [decoration]
      have hdw : (' ' :: '(' :: (commaList refs ++ [')'])).dropWhile isSpace = '(' :: (commaList refs ++ [')']) := by
        rw [List.dropWhile_cons, if_pos (by decide), List.dropWhile_cons, if_neg (by decide)]
      rw [e]
      unfold strip stripBy
      rw [hdw]
      have : ('(' :: (commaList refs ++ [')'])).reverse = ')' :: ('(' :: commaList refs).reverse := by simp
      rw [this, List.dropWhile_cons, if_neg (by decide)]
      simp
    rw [← hq] at hs
    simp at hs
  have htr : ∀ a b c : Text, leText a b = true → leText b c = true → leText a c = true := by
    intro a b c
    simp only [leText, decide_eq_true_eq]
    exact List.le_trans
  have htot : ∀ a b : Text, (leText a b || leText b a) = true := by
    intro a b
    simp only [leText, Bool.or_eq_true, decide_eq_true_eq]
    exact List.le_total a b
  have hsort := List.pairwise_mergeSort htr htot (refTags (strip kw.refnames))
  have hst : strip kw.full = full := by rw [hfull, strip_clean hh.printable.clean]
  unfold fromKeywords
  simp only [hexp, Bool.false_eq_true, if_false, hst, hdate, isoDate_eq hd ht hz]
  cases hf : ((refTags (strip kw.refnames)).mergeSort leText).find? fun r => pre.isPrefixOf r with
  | none =>
    right
    refine ⟨fun t ht hp => ?_, rfl⟩
    have := List.find?_eq_none.1 hf t (List.mem_mergeSort.2 (by rw [hkw]; exact (hmem t).2 ht))
    exact this (List.isPrefixOf_iff_prefix.2 hp)
  | some ref =>
    left
    obtain ⟨hp, as, bs, hsplit, has⟩ := List.find?_eq_some_iff_append.1 hf
    obtain ⟨r, rfl⟩ := List.isPrefixOf_iff_prefix.1 hp
    have hin : pre ++ r ∈ refTags (strip kw.refnames) := by
      rw [← List.mem_mergeSort (le := leText), hsplit]; simp
    refine ⟨r, (hmem _).1 (by rw [← hkw]; exact hin), fun t ht hpt => ?_, by simp⟩
    have ht' : t ∈ (refTags (strip kw.refnames)).mergeSort leText :=
      List.mem_mergeSort.2 (by rw [hkw]; exact (hmem t).2 ht)
    rw [hsplit] at ht' hsort
    rcases List.mem_append.1 ht' with h | h
    · have := has t h
      rw [List.isPrefixOf_iff_prefix.2 hpt] at this
      exact absurd this (by simp)
    · rcases List.mem_cons.1 h with rfl | h
      · exact List.le_refl _
      · have := (List.pairwise_append.1 hsort).2.1
        have := (List.pairwise_cons.1 this).1 t h
        simpa [leText] using this

/-- Non-vacuity: an archive of a commit with two tags and a branch. -/
example : fromKeywords ⟨" (HEAD -> master, tag: ver-2.0rc1, tag: ver-2.0)".toList, "12ab".toList,
      "2019-10-14 09:30:00 +0200".toList⟩ "ver-".toList =
    .ok ⟨"2.0".toList, some "12ab".toList, some false, none, some "2019-10-14T09:30:00+0200".toList⟩ := by
  rcases C120_archive (kw := ⟨" (HEAD -> master, tag: ver-2.0rc1, tag: ver-2.0)".toList, "12ab".toList,
      "2019-10-14 09:30:00 +0200".toList⟩)
      (refs := ["HEAD -> master".toList, "tag: ver-2.0rc1".toList, "tag: ver-2.0".toList]) "ver-".toList
      (day := "2019-10-14".toList) (time := "09:30:00".toList) (zone := "+0200".toList) (full := "12ab".toList)
      (by decide) (by unfold RefName; decide) ⟨"ver-2.0".toList, by decide⟩ rfl ⟨by decide, by decide⟩ (by decide)
      ⟨by decide, by decide⟩ ⟨by decide, by decide⟩ ⟨by decide, by decide⟩ with ⟨r, h1, h2, h3⟩ | ⟨h, _⟩
  · have hle := h2 "ver-2.0".toList (by decide) ⟨_, rfl⟩
    rw [h3]
    have : r = "2.0rc1".toList ∨ r = "2.0".toList := by simpa using h1
    rcases this with rfl | rfl
    · exact absurd hle (by decide)
    · rfl
  · exact absurd ⟨"2.0".toList, rfl⟩ (h "ver-2.0".toList (by decide))

end BT
