import Verif.Model.Version

/-!
# Specification of versions

What `git` prints, and which texts are versions (PEP 440), written without the functions of `_version.py`.
-/

namespace BT
namespace Version
namespace Spec

/-- Neither white space nor control characters, as in names of tags. -/
def Printable (s : Text) : Prop := s ≠ [] ∧ ∀ c ∈ s, 32 < c.toNat

/-- A hexadecimal number as `git` prints it. -/
def HexText (s : Text) : Prop := s ≠ [] ∧ ∀ c ∈ s, c ∈ "0123456789abcdef".toList

/-- Output of `git describe --tags --dirty --always --long`, `n` commits after a tag. -/
def describeTagged (tag : Text) (n : Nat) (hex : Text) (dirty : Bool) : Text :=
  tag ++ "-".toList ++ (toString n).toList ++ "-g".toList ++ hex ++ (if dirty then "-dirty".toList else [])

/-- The same if no tag can be reached. -/
def describeBare (hex : Text) (dirty : Bool) : Text := hex ++ (if dirty then "-dirty".toList else [])

/-- Starting `git` with these arguments prints a line and succeeds. -/
def Prints (popen : Text → List Text → Proc) (args : List Text) (line : Text) : Prop :=
  popen "git".toList args = .ran (line ++ ['\n']) 0

/-- Every program run in the directory behaves as in a checkout of the commit `full` of the given date;
`describe` is what `git describe` prints for tags with the prefix. -/
structure Checkout (popen : Text → List Text → Proc) (tagPrefix describe full day time zone : Text) : Prop where
  gitDir : ∃ dir, Prints popen ["rev-parse".toList, "--git-dir".toList] dir
  describe : Prints popen ["describe".toList, "--tags".toList, "--dirty".toList, "--always".toList,
    "--long".toList, "--match".toList, tagPrefix ++ "*".toList] describe
  head : Prints popen ["rev-parse".toList, "HEAD".toList] full
  date : Prints popen ["show".toList, "-s".toList, "--format=%ci".toList, "HEAD".toList]
    (day ++ " ".toList ++ time ++ " ".toList ++ zone)
  hex : HexText full
  day : Printable day
  time : Printable time
  zone : Printable zone

/-- `git` is not installed, or the directory is in no repository. -/
def NoGit (popen : Text → List Text → Proc) : Prop :=
  popen "git".toList ["rev-parse".toList, "--git-dir".toList] = .enoent ∨
  popen "git".toList ["rev-parse".toList, "--git-dir".toList] = .failed ∨
  ∃ out rc, popen "git".toList ["rev-parse".toList, "--git-dir".toList] = .ran out rc ∧ rc ≠ 0

/-- Names as in the list of references of a commit, such as `tag: ver-1.0` or `HEAD -> master`. -/
def RefName (r : Text) : Prop :=
  r ≠ [] ∧ (∀ c, r.head? = some c → 32 < c.toNat) ∧ (∀ c, r.getLast? = some c → 32 < c.toNat) ∧
    ',' ∉ r ∧ '(' ∉ r ∧ ')' ∉ r

/-- Names separated by commas. -/
def commaList : List Text → Text
  | [] => []
  | [r] => r
  | r :: r' :: rs => r ++ ", ".toList ++ commaList (r' :: rs)

/-- What `git archive` writes for `$Format:%d$`. -/
def decoration (refs : List Text) : Text := " (".toList ++ commaList refs ++ ")".toList

/-! ### PEP 440 -/

/-- `[0-9]+` -/
def Num (s : Text) : Prop := s ≠ [] ∧ ∀ c ∈ s, c.isDigit

/-- `[a-z0-9]+` -/
def Alnum (s : Text) : Prop := s ≠ [] ∧ ∀ c ∈ s, c.isDigit ∨ c.isLower

/-- `N(.N)*` -/
inductive Release : Text → Prop
  | one {s} : Num s → Release s
  | more {r s} : Release r → Num s → Release (r ++ ".".toList ++ s)

/-- The identifiers of a local version, `[a-z0-9]+(.[a-z0-9]+)*`. -/
inductive LocalPart : Text → Prop
  | one {s} : Alnum s → LocalPart s
  | more {r s} : LocalPart r → Alnum s → LocalPart (r ++ ".".toList ++ s)

/-- Epoch, release and pre-release segment: `[N!]N(.N)*[{a|b|rc}N]`. -/
def Base (v : Text) : Prop :=
  ∃ e r p, v = e ++ r ++ p ∧ (e = [] ∨ ∃ n, Num n ∧ e = n ++ "!".toList) ∧ Release r ∧
    (p = [] ∨ ∃ l ∈ ["a".toList, "b".toList, "rc".toList], ∃ n, Num n ∧ p = l ++ n)

/-- A public version `Base[.postN][.devN]`; the number after `.post` may be missing. -/
def Public (v : Text) : Prop :=
  ∃ b p d, v = b ++ p ++ d ∧ Base b ∧
    (p = [] ∨ p = ".post".toList ∨ ∃ n, Num n ∧ p = ".post".toList ++ n) ∧
    (d = [] ∨ ∃ n, Num n ∧ d = ".dev".toList ++ n)

/-- A version: public, or public with a local part. -/
def Pep440 (v : Text) : Prop :=
  Public v ∨ ∃ p l, Public p ∧ LocalPart l ∧ v = p ++ "+".toList ++ l

end Spec
end Version
end BT
