import Verif.Props.Version

/-!
# C119: when exactly the package can be imported

For a package of a working tree (unexpanded keywords) in the directory `root`, and `git` not started as on Windows.
-/

namespace BT
open Version Version.Spec

namespace Version.Spec

/-- Starting `git` with these arguments ends with exit code 0. -/
def Succeeds (popen : Text → List Text → Proc) (args : List Text) : Prop :=
  ∃ out, popen "git".toList args = .ran out 0

end Version.Spec

lemma run_some {popen : Text → List Text → Proc} {args : List Text} {s : Text} :
    (runCommand popen ["git".toList] args).1 = some s ↔
      ∃ out, popen "git".toList args = .ran out 0 ∧ strip out = s := by
  simp only [runCommand]
  cases h : popen "git".toList args with
  | enoent => simp
  | failed => simp
  | ran out rc =>
    by_cases hrc : rc = 0
    · subst hrc
      simp
    · simp [hrc]

lemma run_none {popen : Text → List Text → Proc} {args : List Text} :
    (runCommand popen ["git".toList] args).1 = none ↔ ¬ Succeeds popen args := by
  rw [← not_iff_not, not_not, ← ne_eq, Option.ne_none_iff_exists']
  constructor
  · rintro ⟨s, hs⟩
    obtain ⟨out, ho, -⟩ := run_some.1 hs
    exact ⟨out, ho⟩
  · rintro ⟨out, ho⟩
    exact ⟨_, run_some.2 ⟨out, ho, rfl⟩⟩

lemma run_code {popen : Text → List Text → Proc} {args : List Text} :
    (runCommand popen ["git".toList] args).2 = some 0 ↔ Succeeds popen args := by
  unfold Succeeds
  simp only [runCommand]
  cases h : popen "git".toList args with
  | enoent => simp
  | failed => simp
  | ran out rc =>
    by_cases hrc : rc = 0
    · subst hrc
      simp
    · simp [hrc]

/-- The result of reading the repository can always be rendered. -/
lemma pieces_render {git : List Text → Option Text × Option Int} {pre : Text} {p : Pieces}
    (h : piecesFromVcs git pre = .ok p) : ∃ v, render p pkgConfig.style = .ok v := by
  have hcase : (∃ e, p.error = some e ∧ e ≠ []) ∨
      ∃ t n, p.error = none ∧ p.closestTag = some t ∧ p.distance = some n := by
    have hdate : ∀ q : Pieces, commitDate git q = .ok p →
        p.error = q.error ∧ p.closestTag = q.closestTag ∧ p.distance = q.distance := by
      intro q hq
      unfold commitDate at hq
      split at hq
      · cases hq
      · cases hq
        exact ⟨rfl, rfl, rfl⟩
    unfold piecesFromVcs at h
    split_ifs at h with h0
    split at h
    · cases h
    · split at h
      · cases h
      · dsimp only at h
        split_ifs at h
        all_goals
          split at h
          · first
              | (cases h; exact .inl ⟨_, rfl, by simp⟩)
              | cases h
          · first
              | (split_ifs at h with g
                 · cases h
                   exact .inl ⟨_, rfl, by simp⟩
                 · split at h
                   · cases h
                   · obtain ⟨e1, e2, e3⟩ := hdate _ h
                     exact .inr ⟨_, _, e1, e2, e3⟩)
              | (split at h
                 · cases h
                 · obtain ⟨e1, e2, e3⟩ := hdate _ h
                   exact .inr ⟨_, _, e1, e2, e3⟩)
  rcases hcase with ⟨e, he, hne⟩ | ⟨t, n, he, ht, hdist⟩
  · unfold render
    rw [he, truthy_some hne]
    exact ⟨_, rfl⟩
  · have : ∃ r, renderPep440 p = .ok r := by
      unfold renderPep440 getTag getDistance plusOrDot
      rcases t with _ | (_ | ⟨c, t⟩)
      · simp only [ht, hdist, bind, Except.bind, truthy, pure, Except.pure]
        exact ⟨_, rfl⟩
      · simp only [ht, hdist, bind, Except.bind, truthy, pure, Except.pure]
        exact ⟨_, rfl⟩
      · simp only [ht, hdist, bind, Except.bind, truthy, pure, Except.pure]
        split_ifs <;> exact ⟨_, rfl⟩
    obtain ⟨r, hr⟩ := this
    exact ⟨_, render_ok (style := []) he hr⟩

section
variable {popen : Text → Text → List Text → Proc} {root : Text}

lemma import_iff (hr : root ≠ []) (hl : root.getLast? ≠ some '/') :
    (∃ v, getVersions pkgKeywords popen false (some (versionFile root)) = .ok v) ↔
      ∀ e, piecesFromVcs (runCommand (popen root) ["git".toList]) [] = .error e → e = .notThisMethod := by
  have hpar : ∀ k r, fromParentdir pkgConfig.parentdirPrefix k r = .error .notThisMethod ∨
      ∃ v, fromParentdir pkgConfig.parentdirPrefix k r = .ok v := by
    intro k
    induction k with
    | zero => exact fun _ => Or.inl rfl
    | succ k ih =>
      intro r
      unfold fromParentdir
      split_ifs
      · exact Or.inr ⟨_, rfl⟩
      · exact ih _
  unfold getVersions
  simp only
  rw [root_eq hr hl]
  unfold versionsAt
  rw [keywords_unexpanded]
  simp only [orElse]
  have hg : runCommand (popen root) (gitNames false) = runCommand (popen root) ["git".toList] := rfl
  have hpre : pkgConfig.tagPrefix = [] := rfl
  rw [hg, hpre]
  cases hp : piecesFromVcs (runCommand (popen root) ["git".toList]) [] with
  | error e =>
    simp only [bind, Except.bind]
    constructor
    · rintro ⟨v, hv⟩ e' he
      cases he
      by_contra hne
      revert hv
      cases e <;> simp_all
    · intro h
      obtain rfl := h e rfl
      simp only
      rw [if_neg (by decide)]
      rcases hpar 3 root with h | ⟨v, h⟩
      · rw [h]; exact ⟨_, rfl⟩
      · rw [h]; exact ⟨_, rfl⟩
  | ok p =>
    obtain ⟨v, hv⟩ := pieces_render hp
    simp only [bind, Except.bind, hv]
    constructor
    · intro _ e he
      cases he
    · intro _
      exact ⟨_, rfl⟩

/-- **C119**: the package can be imported wherever `git rev-parse` or `git describe` fails, in particular outside of
repositories and where `git` is not installed. -/
theorem C119_no_commit_partial (hr : root ≠ []) (hl : root.getLast? ≠ some '/')
    (h : ¬ Succeeds (popen root) ["rev-parse".toList, "--git-dir".toList] ∨
      ¬ Succeeds (popen root) ["describe".toList, "--tags".toList, "--dirty".toList, "--always".toList,
        "--long".toList, "--match".toList, "*".toList] ∨
      ¬ Succeeds (popen root) ["rev-parse".toList, "HEAD".toList]) :
    ∃ v, getVersions pkgKeywords popen false (some (versionFile root)) = .ok v := by
  rw [import_iff hr hl]
  intro e he
  by_contra hne
  unfold piecesFromVcs at he
  split_ifs at he with h0
  · cases he; exact hne rfl
  · split at he
    · cases he; exact hne rfl
    · next out ho =>
      split at he
      · cases he; exact hne rfl
      · next full hf =>
        have g0 := run_code.1 (not_not.1 h0)
        have g1 : Succeeds (popen root) (argsDescribe []) := by
          by_contra hc
          rw [run_none.2 hc] at ho
          cases ho
        have g2 : Succeeds (popen root) argsHead := by
          by_contra hc
          rw [run_none.2 hc] at hf
          cases hf
        rcases h with h | h | h
        · exact h g0
        · exact h g1
        · exact h g2

/-- **C119** exactly, where a tag can be reached: the package can be imported if and only if `git show` succeeds or one of
the two calls of `git rev-parse` fails. -/
theorem C119_tagged {tag hex : Text} {n : Nat} {dirty : Bool} (hr : root ≠ []) (hl : root.getLast? ≠ some '/')
    (hd : Prints (popen root) ["describe".toList, "--tags".toList, "--dirty".toList, "--always".toList,
      "--long".toList, "--match".toList, "*".toList] (describeTagged tag n hex dirty))
    (ht : Printable tag) (hh : HexText hex) :
    (∃ v, getVersions pkgKeywords popen false (some (versionFile root)) = .ok v) ↔
      (Succeeds (popen root) ["rev-parse".toList, "--git-dir".toList] →
        Succeeds (popen root) ["rev-parse".toList, "HEAD".toList] →
        Succeeds (popen root) ["show".toList, "-s".toList, "--format=%ci".toList, "HEAD".toList]) := by
  rw [import_iff hr hl]
  have hb : Printable (tag ++ '-' :: (decText n ++ '-' :: 'g' :: hex)) := by
    refine ⟨by simp, fun c hm => ?_⟩
    simp only [List.mem_append, List.mem_cons] at hm
    rcases hm with hm | rfl | hm | rfl | rfl | hm
    · exact ht.2 c hm
    · decide
    · exact (decText_num n).printable.2 c hm
    · decide
    · decide
    · exact hh.printable.2 c hm
  have hdc := (dirty_printable hb dirty).clean
  have g1 : (runCommand (popen root) ["git".toList] (argsDescribe [])).1 = some
      (tag ++ '-' :: (decText n ++ '-' :: 'g' :: hex) ++ (if dirty then "-dirty".toList else [])) := by
    rw [describe_eq] at hd
    exact congrArg Prod.fst (gitOf_clean hd hdc)
  have hsuf : "-dirty".toList.isSuffixOf
      (tag ++ '-' :: (decText n ++ '-' :: 'g' :: hex) ++ (if dirty then "-dirty".toList else [])) = dirty := by
    have := dirty_suffix (b := tag ++ '-' :: (decText n ++ ['-', 'g'])) hh dirty
    simpa [List.append_assoc] using this
  have hmatch : matchDescribe (tag ++ '-' :: (decText n ++ '-' :: 'g' :: hex)) = some (tag, decText n, hex) := by
    rw [C116_regex]
    refine ⟨⟨_, rfl, Or.inl (by simp)⟩, ht.1, ?_, decText_num n, hh⟩
    intro hm
    exact absurd (ht.2 _ hm) (by decide)
  have hpre : ([] : Text).isPrefixOf tag = true := by simp
  unfold piecesFromVcs
  by_cases h0 : Succeeds (popen root) argsGitDir
  · rw [if_neg (not_not.2 (run_code.2 h0))]
    simp only [g1]
    by_cases h2 : Succeeds (popen root) argsHead
    · obtain ⟨out, ho⟩ := h2
      rw [run_some.2 ⟨out, ho, rfl⟩]
      simp only [strip_clean hdc, hsuf]
      rw [drop_dirty, if_pos (by simp)]
      simp only [hmatch, hpre, Bool.true_eq_false, if_false, intOf_decText, commitDate]
      by_cases h3 : Succeeds (popen root) argsDate
      · obtain ⟨o3, h3'⟩ := h3
        rw [run_some.2 ⟨o3, h3', rfl⟩]
        exact ⟨fun _ _ _ => ⟨o3, h3'⟩, fun _ e he => by cases he⟩
      · rw [run_none.2 h3]
        constructor
        · intro h
          exact absurd (h _ rfl) (by simp)
        · intro h
          exact absurd (h h0 ⟨out, ho⟩) h3
    · rw [run_none.2 h2]
      exact ⟨fun _ _ h => absurd h h2, fun _ e he => by cases he; rfl⟩
  · rw [if_pos (fun h => h0 (run_code.1 h))]
    exact ⟨fun _ h => absurd h h0, fun _ e he => by cases he; rfl⟩

/-- **C119** exactly, where no tag can be reached: `git rev-list` must also succeed and print a number. -/
theorem C119_untagged {hex : Text} {dirty : Bool} (hr : root ≠ []) (hl : root.getLast? ≠ some '/')
    (hd : Prints (popen root) ["describe".toList, "--tags".toList, "--dirty".toList, "--always".toList,
      "--long".toList, "--match".toList, "*".toList] (describeBare hex dirty)) (hh : HexText hex) :
    (∃ v, getVersions pkgKeywords popen false (some (versionFile root)) = .ok v) ↔
      (Succeeds (popen root) ["rev-parse".toList, "--git-dir".toList] →
        Succeeds (popen root) ["rev-parse".toList, "HEAD".toList] →
        Succeeds (popen root) ["show".toList, "-s".toList, "--format=%ci".toList, "HEAD".toList] ∧
        ∃ out n, popen root "git".toList ["rev-list".toList, "HEAD".toList, "--count".toList] = .ran out 0 ∧
          intOf (strip out) = some n) := by
  rw [import_iff hr hl]
  have hdc := (dirty_printable hh.printable dirty).clean
  have g1 : (runCommand (popen root) ["git".toList] (argsDescribe [])).1 = some
      (hex ++ (if dirty then "-dirty".toList else [])) := congrArg Prod.fst (gitOf_clean hd hdc)
  have hsuf := dirty_suffix (b := []) hh dirty
  rw [List.nil_append] at hsuf
  have hno : '-' ∉ hex := fun hm => (hex_lt (hh.2 _ hm)).2.1 rfl
  unfold piecesFromVcs
  by_cases h0 : Succeeds (popen root) argsGitDir
  · rw [if_neg (not_not.2 (run_code.2 h0))]
    simp only [g1]
    by_cases h2 : Succeeds (popen root) argsHead
    · obtain ⟨out, ho⟩ := h2
      rw [run_some.2 ⟨out, ho, rfl⟩]
      simp only [strip_clean hdc, hsuf]
      rw [drop_dirty, if_neg hno]
      by_cases h4 : Succeeds (popen root) argsCount
      · obtain ⟨o4, h4⟩ := h4
        rw [run_some.2 ⟨o4, h4, rfl⟩]
        cases hi : intOf (strip o4) with
        | none =>
          simp only [hi]
          constructor
          · intro h
            exact absurd (h _ rfl) (by simp)
          · intro h
            obtain ⟨-, o, k, e1, e2⟩ := h h0 ⟨out, ho⟩
            have e1 : popen root "git".toList argsCount = .ran o 0 := e1
            rw [h4] at e1
            cases e1
            rw [hi] at e2
            cases e2
        | some k =>
          simp only [hi, commitDate]
          by_cases h3 : Succeeds (popen root) argsDate
          · obtain ⟨o3, h3'⟩ := h3
            rw [run_some.2 ⟨o3, h3', rfl⟩]
            exact ⟨fun _ _ _ => ⟨⟨o3, h3'⟩, o4, k, h4, hi⟩, fun _ e he => by cases he⟩
          · rw [run_none.2 h3]
            constructor
            · intro h
              exact absurd (h _ rfl) (by simp)
            · intro h
              exact absurd (h h0 ⟨out, ho⟩).1 h3
      · rw [run_none.2 h4]
        constructor
        · intro h
          exact absurd (h _ rfl) (by simp)
        · intro h
          obtain ⟨-, o, k, e1, -⟩ := h h0 ⟨out, ho⟩
          exact absurd ⟨o, e1⟩ h4
    · rw [run_none.2 h2]
      exact ⟨fun _ _ h => absurd h h2, fun _ e he => by cases he; rfl⟩
  · rw [if_pos (fun h => h0 (run_code.1 h))]
    exact ⟨fun _ h => absurd h h0, fun _ e he => by cases he; rfl⟩

end

/-- Non-vacuity: `git` is not installed. -/
example : ∃ v, getVersions pkgKeywords (fun _ _ _ => .enoent) false (some (versionFile "/home".toList)) = .ok v :=
  C119_no_commit_partial (by decide) (by decide) (.inl (by rintro ⟨out, h⟩; cases h))

/-- Non-vacuity: a repository with a tag `v1` whose `git show` fails, and one where it succeeds. -/
def showGit (code : Int) : Text → Text → List Text → Proc := fun _ _ args =>
  if args.head? = some "describe".toList then .ran ("v1-2-gabc".toList ++ ['\n']) 0
  else if args.head? = some "show".toList then .ran [] code else .ran "abc\n".toList 0

example : (¬ ∃ v, getVersions pkgKeywords (showGit 128) false (some (versionFile "/home".toList)) = .ok v) ∧
    ∃ v, getVersions pkgKeywords (showGit 0) false (some (versionFile "/home".toList)) = .ok v := by
  have hd : ∀ code, Prints (showGit code "/home".toList) ["describe".toList, "--tags".toList, "--dirty".toList,
      "--always".toList, "--long".toList, "--match".toList, "*".toList]
      (describeTagged "v1".toList 2 "abc".toList false) := fun _ => rfl
  have ht : Printable "v1".toList := ⟨by decide, by decide⟩
  have hh : HexText "abc".toList := ⟨by decide, by decide⟩
  constructor
  · rw [C119_tagged (by decide) (by decide) (hd 128) ht hh]
    intro h
    obtain ⟨out, ho⟩ := h ⟨_, rfl⟩ ⟨_, rfl⟩
    injection ho with _ hc
    exact absurd hc (by decide)
  · rw [C119_tagged (by decide) (by decide) (hd 0) ht hh]
    exact fun _ _ => ⟨_, rfl⟩

/-- Non-vacuity: a repository without tags, see `brokenGit`. -/
example : (∃ v, getVersions pkgKeywords (brokenGit []) false (some (versionFile "/home".toList)) = .ok v) ∧
    ¬ ∃ v, getVersions pkgKeywords (brokenGit "rev-list".toList) false (some (versionFile "/home".toList)) = .ok v := by
  have hd : ∀ bad, bad ≠ "describe".toList → Prints (brokenGit bad "/home".toList) ["describe".toList, "--tags".toList,
      "--dirty".toList, "--always".toList, "--long".toList, "--match".toList, "*".toList]
      (describeBare "12".toList false) := by
    intro bad hb
    unfold Prints brokenGit
    rw [if_neg (by simpa using fun h => hb h.symm)]
    rfl
  have hh : HexText "12".toList := ⟨by decide, by decide⟩
  constructor
  · rw [C119_untagged (by decide) (by decide) (hd _ (by decide)) hh]
    exact fun _ _ => ⟨⟨_, rfl⟩, _, 12, rfl, rfl⟩
  · rw [C119_untagged (by decide) (by decide) (hd _ (by decide)) hh]
    intro h
    obtain ⟨-, o, k, e1, -⟩ := h ⟨_, rfl⟩ ⟨_, rfl⟩
    injection e1 with _ hc
    exact absurd hc (by decide)

end BT
