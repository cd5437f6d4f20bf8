import Verif.Model.Semantic
/-!
# Comparison of PyPI versions (`github.com/google/osv-scalibr/semantic`, `version-pypi.go`)

`pkg/database/osv.go:96-131` compares the versions of packages from `requirements.txt`, `poetry.lock`, `Pipfile.lock`, `pdm.lock`, `uv.lock`
and `pylock.toml` with it. The library is not part of the repository; the definitions follow its known behaviour (release 0.4).
The library reads versions with one regular expression; it is deterministic from left to right, and the definitions read it so.
Lower case is that of ASCII.
-/
namespace Osv.Pypi
open Str Semantic

/-- `[-_.]?` -/
def dropSep : Str → Str
  | c :: r => if c = '-' ∨ c = '_' ∨ c = '.' then r else c :: r
  | [] => []

/-- One of some words, with what it is normalised to (`parseLetterVersion`), and what follows. Longer words come first. -/
def word : List (Str × Str) → Str → Option (Str × Str)
  | [], _ => none
  | (w, l) :: ws, s => if hasPrefix s w then some (l, s.drop w.length) else word ws s

/-- `[-_.]?(words)[-_.]?([0-9]+)?`: the word and the number, and what follows. Without digits the number is 0. -/
def tagged (ws : List (Str × Str)) (s : Str) : Option (Str × Nat) × Str :=
  match word ws (dropSep s) with
  | none => (none, s)
  | some (l, r) => (some (l, decimal ((dropSep r).takeWhile isDigit)), (dropSep r).dropWhile isDigit)

def preWords : List (Str × Str) :=
  [(g!"alpha", g!"a"), (g!"a", g!"a"), (g!"beta", g!"b"), (g!"b", g!"b"), (g!"preview", g!"rc"), (g!"pre", g!"rc"), (g!"rc", g!"rc"), (g!"c", g!"rc")]

def postWords : List (Str × Str) := [(g!"post", g!"post"), (g!"rev", g!"post"), (g!"r", g!"post")]

def devWords : List (Str × Str) := [(g!"dev", g!"dev")]

/-- `(?:-(?P<post_n1>[0-9]+))|(?:[-_\.]?(?P<post_l>post|rev|r)[-_\.]?(?P<post_n2>[0-9]+)?)` -/
def postPart (s : Str) : Option (Str × Nat) × Str :=
  match s with
  | '-' :: r => if r.takeWhile isDigit ≠ [] then (some (g!"post", decimal (r.takeWhile isDigit)), r.dropWhile isDigit) else tagged postWords s
  | _ => tagged postWords s

/-- `[a-z0-9]` and the separators of local versions. -/
def isSeg (c : Char) : Bool := isDigit c || ('a' ≤ c && c ≤ 'z')

def isSep (c : Char) : Bool := c == '.' || c == '_' || c == '-'

/-- `parseLocalVersion`: the text divided at each separator; nothing gives one empty part. -/
def splitSep : Str → List Str
  | [] => [[]]
  | c :: r => if isSep c then [] :: splitSep r else match splitSep r with
    | [] => [[c]]
    | p :: ps => (c :: p) :: ps

/-- `(?:\+(?P<local>[a-z0-9]+(?:[-_\.][a-z0-9]+)*))?` -/
def localPart : Str → Option (List Str × Str)
  | '+' :: r =>
    let segs := splitSep (r.takeWhile fun c => isSeg c || isSep c)
    if segs.all (· ≠ []) then some (segs, r.dropWhile fun c => isSeg c || isSep c) else none
  | s => some (splitSep [], s)

/-- `(?:\.[0-9]+)*` -/
def more : Nat → Str → List Nat × Str
  | 0, s => ([], s)
  | k + 1, s => match s with
    | '.' :: r =>
      if r.takeWhile isDigit = [] then ([], s)
      else
        let p := more k (r.dropWhile isDigit)
        (decimal (r.takeWhile isDigit) :: p.1, p.2)
    | _ => ([], s)

/-- `pyPIVersion`; the parts of a legacy version are joined. -/
structure Ver where
  epoch : Int
  release : List Nat
  pre : Option (Str × Nat)
  post : Option Nat
  dev : Option Nat
  loc : List Str
  legacy : Option Str
deriving DecidableEq, Repr

/-- The regular expression from the release on. -/
def body (epoch : Nat) (s : Str) : Option Ver :=
  let rel := more s.length (s.dropWhile isDigit)
  let pre := tagged preWords rel.2
  let post := postPart pre.2
  let dev := tagged devWords post.2
  match localPart dev.2 with
  | none => none
  | some (l, rest) =>
    if rest.all isReSpace then
      some ⟨epoch, decimal (s.takeWhile isDigit) :: rel.1, pre.1, post.1.map (·.2), dev.1.map (·.2), l, none⟩
    else none

/-- The regular expression from the epoch on. -/
def numbers (s : Str) : Option Ver :=
  if s.takeWhile isDigit = [] then none
  else match s.dropWhile isDigit with
    | '!' :: t => if t.takeWhile isDigit = [] then none else body (decimal (s.takeWhile isDigit)) t
    | _ => body 0 s

/-- `parsePyPIVersion`. `legacy` is what `parsePyPILegacyVersion` makes of a text that is not a version. -/
def parse (legacy : Str → Str) (s : Str) : Ver :=
  match numbers (trimPrefix ((toLower s).dropWhile isReSpace) g!"v") with
  | some v => v
  | none => ⟨-1, [], none, none, none, [], some (legacy s)⟩

/-- `compareLegacy` -/
def cmpLegacy (v w : Ver) : Int :=
  match v.legacy, w.legacy with
  | none, none => 0
  | none, some _ => 1
  | some _, none => -1
  | some a, some b => cmpStr a b

/-- `shouldApplyPreTrick`: a developmental release of the release itself. -/
def trick (v : Ver) : Bool := v.pre.isNone && v.post.isNone && v.dev.isSome

/-- `preIndex`. The last case is a panic and cannot occur. -/
def preIndex (l : Str) : Int := if l = g!"a" then 0 else if l = g!"b" then 1 else if l = g!"rc" then 2 else 3

/-- `comparePre` -/
def cmpPre (v w : Ver) : Int :=
  if trick v && trick w then 0
  else if trick v then -1
  else if trick w then 1
  else match v.pre, w.pre with
    | none, none => 0
    | none, some _ => 1
    | some _, none => -1
    | some a, some b =>
      if preIndex b.1 < preIndex a.1 then 1 else if preIndex a.1 < preIndex b.1 then -1 else cmpInt a.2 b.2

/-- `comparePost` -/
def cmpPost (v w : Ver) : Int :=
  match v.post, w.post with
  | none, none => 0
  | none, some _ => -1
  | some _, none => 1
  | some a, some b => cmpInt a b

/-- `compareDev` -/
def cmpDev (v w : Ver) : Int :=
  match v.dev, w.dev with
  | none, none => 0
  | none, some _ => 1
  | some _, none => -1
  | some a, some b => cmpInt a b

/-- `compareLocal` -/
def cmpLocal : List Str → List Str → Int
  | [], [] => 0
  | [], _ :: _ => -1
  | _ :: _, [] => 1
  | a :: as, b :: bs => if cmpSegment a b ≠ 0 then cmpSegment a b else cmpLocal as bs

/-- The first comparison that is not 0. -/
def first : List Int → Int
  | [] => 0
  | d :: ds => if d ≠ 0 then d else first ds

/-- `pypiVersion.compareVersion` -/
def compare (v w : Ver) : Int :=
  first [cmpLegacy v w, cmpInt v.epoch w.epoch, cmpComponents v.release w.release, cmpPre v w, cmpPost v w, cmpDev v w, cmpLocal v.loc w.loc]

/-- `pypiVersion.CompareStr` -/
def pypi (legacy : Str → Str) (a b : Str) : Int := compare (parse legacy a) (parse legacy b)

example : [g!"1.dev0", g!"1.0.dev456", g!"1.0a1", g!"1.0a2.dev456", g!"1.0a12.dev456", g!"1.0a12", g!"1.0b1.dev456", g!"1.0b2",
    g!"1.0b2.post345.dev456", g!"1.0b2.post345", g!"1.0rc1.dev456", g!"1.0rc1", g!"1.0", g!"1.0+abc.5", g!"1.0+abc.7", g!"1.0+5",
    g!"1.0.post456.dev34", g!"1.0.post456", g!"1.0.15", g!"1.1.dev1", g!"1!0.5"].Pairwise fun a b => pypi id a b = -1 := by decide +kernel
example : [g!"1.0-ALPHA.1", g!"v1a1", g!" 1.0.0_alpha1 ", g!"01.0a01"].Pairwise fun a b => pypi id a b = 0 := by decide +kernel
example : [g!"1.1-1", g!"1.1.post1", g!"1.1.r1", g!"1.1REV1"].Pairwise fun a b => pypi id a b = 0 := by decide +kernel
example : pypi id g!"a version" g!"0.dev0" = -1 := by decide +kernel

end Osv.Pypi
