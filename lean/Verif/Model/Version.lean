/-!
# The version string (`_version.py`, `versioneer.py`, `setup.cfg`)

Text is a list of characters. White space and digits are those of ASCII. Python's `int` of a text is only
modelled for texts that are decimal numerals, all that `git` prints. The operating system is a parameter:
`popen` says what starting a program does.
-/

namespace BT
namespace Version

abbrev Text := List Char

/-- The exceptions of `_version.py`; `NotThisMethod` is its own class (_version.py:51-52). -/
inductive VErr
  | notThisMethod | typeError | attributeError | keyError | valueError
  deriving DecidableEq, Repr

/-- White space removed by `str.strip()` (ASCII). -/
def isSpace (c : Char) : Bool :=
  c ∈ [' ', '\t', '\n', '\r', '\x0b', '\x0c', '\x1c', '\x1d', '\x1e', '\x1f']

/-- `str.strip()` with the characters to remove given by a test. -/
def stripBy (p : Char → Bool) (s : Text) : Text := ((s.dropWhile p).reverse.dropWhile p).reverse

/-- `str.strip()`. -/
def strip (s : Text) : Text := stripBy isSpace s

/-- `s.replace(c, r, 1)`. -/
def replaceFirst (c : Char) (r : Text) : Text → Text
  | [] => []
  | d :: s => if d = c then r ++ s else d :: replaceFirst c r s

/-- `date.strip().replace(" ", "T", 1).replace(" ", "", 1)` (_version.py:174, 303). -/
def isoDate (s : Text) : Text := replaceFirst ' ' [] (replaceFirst ' ' ['T'] (strip s))

/-- The class `\d`. -/
def isDigit (c : Char) : Bool := c.isDigit

/-- The class `[0-9a-f]`. -/
def isHex (c : Char) : Bool := isDigit c || (decide ('a' ≤ c) && decide (c ≤ 'f'))

/-- `"%d" % n`. -/
def decText (n : Nat) : Text := Nat.toDigits 10 n

/-- `int(s)`; `none` is the `ValueError`. -/
def intOf (s : Text) : Option Nat :=
  if s ≠ [] ∧ s.all isDigit = true then some (Nat.ofDigitChars 10 s 0) else none

/-! ### Running programs -/

/-- What `subprocess.Popen` and waiting for the program lead to: the program does not exist, cannot be
started, or ends with an output and a return code. -/
inductive Proc
  | enoent
  | failed
  | ran (stdout : Text) (rc : Int)

/-- `run_command` (_version.py:70-104): first component the output, second the return code. -/
def runCommand (popen : Text → List Text → Proc) : List Text → List Text → Option Text × Option Int
  | [], _ => (none, none)
  | c :: cs, args =>
    match popen c args with
    | .enoent => runCommand popen cs args
    | .failed => (none, none)
    | .ran out rc => if rc ≠ 0 then (none, some rc) else (some (strip out), some rc)

/-! ### Version dictionaries -/

/-- The dictionary returned by `get_versions`; `none` is Python's `None`. -/
structure Versions where
  version : Text
  full : Option Text
  dirty : Option Bool
  error : Option Text
  date : Option Text
  deriving DecidableEq, Repr

/-- The keywords that `git archive` may have filled in (_version.py:20-30). -/
structure Keywords where
  refnames : Text
  full : Text
  date : Text

/-- `get_keywords()` of the file in the repository (_version.py:20-30). -/
def pkgKeywords : Keywords := ⟨"$Format:%d$".toList, "$Format:%H$".toList, "$Format:%ci$".toList⟩

/-- `VersioneerConfig` without the fields that are not used. -/
structure Config where
  style : Text
  tagPrefix : Text
  parentdirPrefix : Text
  versionfileSource : Text

/-- `get_config()` (_version.py:37-48). -/
def pkgConfig : Config := ⟨[], [], "hadoop-utils-".toList, "hadoop_utils/_version.py".toList⟩

/-- The section `[versioneer]` of setup.cfg, read by versioneer.py:335-361. -/
def setupConfig : Config :=
  ⟨"pep440-pre".toList, "ver-".toList, "bayesian_decision_tree".toList,
    "bayesian_decision_tree/_version.py".toList⟩

/-- Comparison of texts by code points, as used by `sorted`. -/
def leText (s t : Text) : Bool := decide (s ≤ t)

/-- The tags among the reference names (_version.py:180-195), with repetitions where Python has a set. -/
def refTags (refnames : Text) : List Text :=
  let refs := ((stripBy (fun c => c = '(' || c = ')') refnames).splitOn ',').map strip
  let tag : Text := "tag: ".toList
  let tags := (refs.filter fun r => tag.isPrefixOf r).map fun r => r.drop tag.length
  if tags.isEmpty then refs.filter fun r => r.any isDigit else tags

/-- `git_versions_from_keywords` (_version.py:162-213). -/
def fromKeywords (kw : Keywords) (tagPrefix : Text) : Except VErr Versions :=
  let refnames := strip kw.refnames
  if "$Format".toList.isPrefixOf refnames then .error .notThisMethod
  else
    match ((refTags refnames).mergeSort leText).find? fun r => tagPrefix.isPrefixOf r with
    | some ref =>
      .ok ⟨ref.drop tagPrefix.length, some (strip kw.full), some false, none, some (isoDate kw.date)⟩
    | none =>
      .ok ⟨"0+unknown".toList, some (strip kw.full), some false, some "no suitable tags".toList, none⟩

/-! ### Reading the output of `git describe` -/

/-- The rest `-(\d+)-g([0-9a-f]+)` of the regular expression, up to the end of the text. -/
def matchTail : Text → Option (Text × Text)
  | '-' :: r =>
    let ds := r.takeWhile isDigit
    match r.dropWhile isDigit with
    | '-' :: 'g' :: h => if ds ≠ [] ∧ h ≠ [] ∧ h.all isHex = true then some (ds, h) else none
    | _ => none
  | _ => none

/-- `re.search(r'^(.+)-(\d+)-g([0-9a-f]+)$', s)` (_version.py:269): the first group is greedy, so longer
ones are tried first; `.` does not match a line break; `$` also matches before a final line break. -/
def matchDescribe (s : Text) : Option (Text × Text × Text) :=
  let body := if s.getLast? = some '\n' then s.dropLast else s
  (List.range (body.length + 1)).reverse.findSome? fun i =>
    let t := body.take i
    if t ≠ [] ∧ '\n' ∉ t then (matchTail (body.drop i)).map fun p => (t, p.1, p.2) else none

/-- The dictionary `pieces`. The outer `none` of `closestTag` and the `none` of `distance` are missing
keys; `date` is only read with `get`. -/
structure Pieces where
  long : Text
  short : Text
  error : Option Text
  dirty : Bool
  closestTag : Option (Option Text)
  distance : Option Nat
  date : Option Text
  deriving DecidableEq, Repr

/-- The arguments of the programs run by `git_pieces_from_vcs`. -/
def argsGitDir : List Text := ["rev-parse".toList, "--git-dir".toList]
def argsDescribe (tagPrefix : Text) : List Text :=
  ["describe".toList, "--tags".toList, "--dirty".toList, "--always".toList, "--long".toList,
    "--match".toList, tagPrefix ++ ['*']]
def argsHead : List Text := ["rev-parse".toList, "HEAD".toList]
def argsCount : List Text := ["rev-list".toList, "HEAD".toList, "--count".toList]
def argsDate : List Text := ["show".toList, "-s".toList, "--format=%ci".toList, "HEAD".toList]

/-- The date of the commit (_version.py:300-303); `None.strip()` is an `AttributeError`. -/
def commitDate (git : List Text → Option Text × Option Int) (p : Pieces) : Except VErr Pieces :=
  match (git argsDate).1 with
  | none => .error .attributeError
  | some d => .ok { p with date := some (isoDate d) }

/-- `git_pieces_from_vcs` (_version.py:217-305); `git` is `run_command(GITS, ·, cwd=root)`. The text
before the suffix `-dirty` is that before its last occurrence. -/
def piecesFromVcs (git : List Text → Option Text × Option Int) (tagPrefix : Text) : Except VErr Pieces :=
  if (git argsGitDir).2 ≠ some 0 then .error .notThisMethod
  else match (git (argsDescribe tagPrefix)).1 with
  | none => .error .notThisMethod
  | some out =>
    match (git argsHead).1 with
    | none => .error .notThisMethod
    | some full =>
      let describe := strip out
      let full := strip full
      let dirty := "-dirty".toList.isSuffixOf describe
      let s := if dirty then describe.take (describe.length - "-dirty".toList.length) else describe
      let p : Pieces := ⟨full, full.take 7, none, dirty, none, none, none⟩
      if '-' ∈ s then
        match matchDescribe s with
        | none =>
          .ok { p with error := some ("unable to parse git-describe output: '".toList ++ describe ++ ['\'']) }
        | some (tag, num, hex) =>
          if tagPrefix.isPrefixOf tag = false then
            .ok { p with error := some ("tag '".toList ++ tag ++ "' doesn't start with prefix '".toList ++
              tagPrefix ++ ['\'']) }
          else
            match intOf num with
            | none => .error .valueError
            | some n =>
              commitDate git { p with
                closestTag := some (some (tag.drop tagPrefix.length)), distance := some n, short := hex }
      else
        match (git argsCount).1 with
        | none => .error .typeError
        | some c =>
          match intOf c with
          | none => .error .valueError
          | some n => commitDate git { p with closestTag := some none, distance := some n }

/-! ### Rendering -/

/-- `pieces["closest-tag"]`. -/
def getTag (p : Pieces) : Except VErr (Option Text) :=
  match p.closestTag with | none => .error .keyError | some t => .ok t

/-- `pieces["distance"]`. -/
def getDistance (p : Pieces) : Except VErr Nat :=
  match p.distance with | none => .error .keyError | some n => .ok n

/-- The tag if the test `if pieces["closest-tag"]` succeeds: neither `None` nor empty. -/
def truthy : Option Text → Option Text
  | some (c :: t) => some (c :: t)
  | _ => none

/-- `plus_or_dot` (_version.py:308-312); `"+" in None` is a `TypeError`. -/
def plusOrDot (p : Pieces) : Except VErr Text :=
  match p.closestTag with
  | none => .ok ['+']
  | some none => .error .typeError
  | some (some t) => .ok (if '+' ∈ t then ['.'] else ['+'])

/-- `render_pep440` (_version.py:315-337). -/
def renderPep440 (p : Pieces) : Except VErr Text := do
  match truthy (← getTag p) with
  | some tag =>
    let n ← getDistance p
    if n ≠ 0 ∨ p.dirty = true then
      let r := tag ++ (← plusOrDot p) ++ (decText n ++ ".g".toList ++ p.short)
      return if p.dirty then r ++ ".dirty".toList else r
    else return tag
  | none =>
    let r := "0+untagged.".toList ++ decText (← getDistance p) ++ ".g".toList ++ p.short
    return if p.dirty then r ++ ".dirty".toList else r

/-- `render_pep440_pre` (_version.py:340-353). -/
def renderPre (p : Pieces) : Except VErr Text := do
  match truthy (← getTag p) with
  | some tag =>
    let n ← getDistance p
    return if n ≠ 0 then tag ++ (".post.dev".toList ++ decText n) else tag
  | none => return "0.post.dev".toList ++ decText (← getDistance p)

/-- `render_pep440_post` (_version.py:356-380). -/
def renderPost (p : Pieces) : Except VErr Text := do
  match truthy (← getTag p) with
  | some tag =>
    let n ← getDistance p
    if n ≠ 0 ∨ p.dirty = true then
      let r := tag ++ (".post".toList ++ decText n)
      let r := if p.dirty then r ++ ".dev0".toList else r
      return r ++ (← plusOrDot p) ++ ('g' :: p.short)
    else return tag
  | none =>
    let r := "0.post".toList ++ decText (← getDistance p)
    let r := if p.dirty then r ++ ".dev0".toList else r
    return r ++ ("+g".toList ++ p.short)

/-- `render_pep440_old` (_version.py:383-402). -/
def renderOld (p : Pieces) : Except VErr Text := do
  match truthy (← getTag p) with
  | some tag =>
    let n ← getDistance p
    if n ≠ 0 ∨ p.dirty = true then
      let r := tag ++ (".post".toList ++ decText n)
      return if p.dirty then r ++ ".dev0".toList else r
    else return tag
  | none =>
    let r := "0.post".toList ++ decText (← getDistance p)
    return if p.dirty then r ++ ".dev0".toList else r

/-- `render_git_describe` (_version.py:405-422). -/
def renderDescribe (p : Pieces) : Except VErr Text := do
  let r ← match truthy (← getTag p) with
    | some tag => do
      let n ← getDistance p
      pure (if n ≠ 0 then tag ++ (['-'] ++ decText n ++ "-g".toList ++ p.short) else tag)
    | none => pure p.short
  return if p.dirty then r ++ "-dirty".toList else r

/-- `render_git_describe_long` (_version.py:425-442). -/
def renderDescribeLong (p : Pieces) : Except VErr Text := do
  let r ← match truthy (← getTag p) with
    | some tag => do
      let n ← getDistance p
      pure (tag ++ (['-'] ++ decText n ++ "-g".toList ++ p.short))
    | none => pure p.short
  return if p.dirty then r ++ "-dirty".toList else r

/-- The function for a style (_version.py:454-470). -/
def renderStyle (style : Text) (p : Pieces) : Except VErr Text :=
  let style := if style = [] ∨ style = "default".toList then "pep440".toList else style
  if style = "pep440".toList then renderPep440 p
  else if style = "pep440-pre".toList then renderPre p
  else if style = "pep440-post".toList then renderPost p
  else if style = "pep440-old".toList then renderOld p
  else if style = "git-describe".toList then renderDescribe p
  else if style = "git-describe-long".toList then renderDescribeLong p
  else .error .valueError

/-- `render` (_version.py:445-474). -/
def render (p : Pieces) (style : Text) : Except VErr Versions :=
  match truthy p.error with
  | some e => .ok ⟨"unknown".toList, some p.long, none, some e, none⟩
  | none => do
    let r ← renderStyle style p
    return ⟨r, some p.long, some p.dirty, none, p.date⟩

/-! ### The directory -/

/-- `os.path.basename` (POSIX). -/
def basename (p : Text) : Text := (p.reverse.takeWhile (· ≠ '/')).reverse

/-- `os.path.dirname` (POSIX): trailing slashes go unless there is nothing else. -/
def dirname (p : Text) : Text :=
  let head := p.reverse.dropWhile (· ≠ '/')
  if head.all (· = '/') then head.reverse else (head.dropWhile (· = '/')).reverse

/-- The loop of `versions_from_parentdir` (_version.py:116-127), `k` rounds. -/
def fromParentdir (pre : Text) : Nat → Text → Except VErr Versions
  | 0, _ => .error .notThisMethod
  | k + 1, root =>
    if pre.isPrefixOf (basename root) then
      .ok ⟨(basename root).drop pre.length, none, some false, none, none⟩
    else fromParentdir pre k (dirname root)

/-- `except NotThisMethod: pass`. -/
def orElse (a : Except VErr Versions) (b : Except VErr Versions) : Except VErr Versions :=
  match a with
  | .error .notThisMethod => b
  | a => a

/-- The version when nothing helps (_version.py:518-520). -/
def unknownVersions : Versions :=
  ⟨"0+unknown".toList, none, none, some "unable to compute version".toList, none⟩

/-- The three sources of a version in turn (_version.py:487-491 and 506-520; versioneer.py:1429-1475, where the file
`_version.py` is also searched for a version written by `setup.py`, which that of the repository does not
contain). `git cwd` runs `git` in the directory `cwd`. -/
def versionsAt (cfg : Config) (kw : Keywords) (git : Text → List Text → Option Text × Option Int)
    (root : Text) : Except VErr Versions :=
  orElse (fromKeywords kw cfg.tagPrefix) <|
  orElse (do render (← piecesFromVcs (git root) cfg.tagPrefix) cfg.style) <|
  orElse (if cfg.parentdirPrefix = [] then .error .notThisMethod
    else fromParentdir cfg.parentdirPrefix 3 root) <|
  .ok unknownVersions

/-- `GITS` (_version.py:224-226): the names of the program on Windows and elsewhere. -/
def gitNames (windows : Bool) : List Text :=
  if windows then ["git.cmd".toList, "git.exe".toList] else ["git".toList]

/-- `get_versions()` of the package (_version.py:477-520), called when the package is imported: `file` is
`os.path.realpath(__file__)`, `none` if there is no `__file__`; `popen cwd` starts programs in `cwd`. -/
def getVersions (kw : Keywords) (popen : Text → Text → List Text → Proc) (windows : Bool)
    (file : Option Text) : Except VErr Versions :=
  match file with
  | none =>
    orElse (fromKeywords kw pkgConfig.tagPrefix) <|
    .ok ⟨"0+unknown".toList, none, none, some "unable to find root of source tree".toList, none⟩
  | some f =>
    versionsAt pkgConfig kw (fun cwd => runCommand (popen cwd) (gitNames windows))
      ((pkgConfig.versionfileSource.splitOn '/').foldl (fun r _ => dirname r) f)

/-- `versioneer.get_versions()` (versioneer.py:1402-1475), called by setup.py:37 in the directory `root`. -/
def setupVersions (kw : Keywords) (popen : Text → Text → List Text → Proc) (windows : Bool) (root : Text) :
    Except VErr Versions :=
  versionsAt setupConfig kw (fun cwd => runCommand (popen cwd) (gitNames windows)) root

end Version
end BT
