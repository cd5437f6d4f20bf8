import Verif.Model.TomlFiles
import Verif.Spec.Lists
import Verif.Spec.Case
/-! # What lockfiles in TOML say -/
namespace Osv.Spec
open Str

/-- The table `n` has the value `v` under a key that is `k` apart from upper and lower case. -/
def TEntry (n : TNode) (k : Str) (v : TNode) : Prop := ∃ es k', n = .table es ∧ (k', v) ∈ es ∧ SameName k' k

/-- The value at a path of keys. -/
inductive TAt : TNode → List Str → TNode → Prop
  | here (n : TNode) : TAt n [] n
  | step {n v w : TNode} {k : Str} {ks : List Str} : TEntry n k v → TAt v ks w → TAt n (k :: ks) w

/-- The text at a path; empty if there is none. -/
def TText (n : TNode) (path : List Str) (s : Str) : Prop := TAt n path (.str s) ∨ (∀ t, ¬ TAt n path (.str t)) ∧ s = []

/-- The list under a key; empty if there is none. -/
def TItems (n : TNode) (k : Str) (l : List TNode) : Prop := TEntry n k (.arr l) ∨ (∀ l', ¬ TEntry n k (.arr l')) ∧ l = []

/-- No table has keys that differ in upper and lower case only. -/
inductive TPlain : TNode → Prop
  | str (s : Str) : TPlain (.str s)
  | int (i : Int) : TPlain (.int i)
  | other : TPlain .other
  | arr {l : List TNode} : (∀ v ∈ l, TPlain v) → TPlain (.arr l)
  | table {es : List (Str × TNode)} : es.Pairwise (fun a b => ¬ SameName a.1 b.1) → (∀ e ∈ es, TPlain e.2) → TPlain (.table es)

def TIsText (n : TNode) : Prop := ∃ s, n = .str s

def TIsInt (n : TNode) : Prop := ∃ i, n = .int i

/-- A table whose values under the given keys have the given shapes. -/
def TIsStruct (shapes : List (Str × (TNode → Prop))) (n : TNode) : Prop :=
  ∃ es, n = .table es ∧ ∀ x ∈ shapes, ∀ v, TEntry n x.1 v → x.2 v

/-- An array whose items have the given shape. -/
def TIsListOf (P : TNode → Prop) (n : TNode) : Prop := ∃ l, n = .arr l ∧ ∀ v ∈ l, P v

def CargoShape : TNode → Prop := TIsStruct [(g!"version", TIsInt),
  (g!"package", TIsListOf (TIsStruct [(g!"name", TIsText), (g!"version", TIsText)]))]

def CargoSays (v : TNode) (p : PackageDetails) : Prop :=
  ∃ name version, TText v [g!"name"] name ∧ TText v [g!"version"] version ∧ p = pkg g!"crates.io" name version []

def PoetryShape : TNode → Prop := TIsStruct [(g!"version", TIsInt),
  (g!"package", TIsListOf (TIsStruct [(g!"name", TIsText), (g!"version", TIsText),
    (g!"source", TIsStruct [(g!"type", TIsText), (g!"resolved_reference", TIsText)])]))]

def PoetrySays (v : TNode) (p : PackageDetails) : Prop :=
  ∃ name version commit, TText v [g!"name"] name ∧ TText v [g!"version"] version ∧
    TText v [g!"source", g!"resolved_reference"] commit ∧ p = pkg g!"PyPI" name version commit

def PdmShape : TNode → Prop := TIsStruct [(g!"lock-version", TIsText),
  (g!"package", TIsListOf (TIsStruct [(g!"name", TIsText), (g!"version", TIsText), (g!"groups", TIsListOf TIsText),
    (g!"revision", TIsText)]))]

def PdmSays (v : TNode) (p : PackageDetails) : Prop :=
  ∃ name version commit, TText v [g!"name"] name ∧ TText v [g!"version"] version ∧ TText v [g!"revision"] commit ∧
    p = pkg g!"PyPI" name version commit

def UvShape (optional : TNode → Prop) : TNode → Prop := TIsStruct [(g!"version", TIsInt),
  (g!"package", TIsListOf (TIsStruct [(g!"name", TIsText), (g!"version", TIsText),
    (g!"source", TIsStruct [(g!"virtual", TIsText), (g!"git", TIsText)]), (g!"optional-dependencies", optional)]))]

/-- The root, whose virtual source is the directory itself, is not reported. -/
def UvSays (v : TNode) (p : PackageDetails) : Prop :=
  ¬ TText v [g!"source", g!"virtual"] g!"." ∧ ∃ name version git commit, TText v [g!"name"] name ∧ TText v [g!"version"] version ∧
    TText v [g!"source", g!"git"] git ∧ AfterHash git commit ∧ p = pkg g!"PyPI" name version commit

def PylockShape : TNode → Prop := TIsStruct [(g!"lock-version", TIsText),
  (g!"packages", TIsListOf (TIsStruct [(g!"name", TIsText), (g!"version", TIsText),
    (g!"vcs", TIsStruct [(g!"type", TIsText), (g!"commit-id", TIsText)]), (g!"directory", TIsStruct [(g!"path", TIsText)])]))]

/-- The root, which has no version and is the directory itself, is not reported. -/
def PylockSays (v : TNode) (p : PackageDetails) : Prop :=
  ¬ (TText v [g!"version"] [] ∧ TText v [g!"directory", g!"path"] g!".") ∧ ∃ name version commit, TText v [g!"name"] name ∧
    TText v [g!"version"] version ∧ TText v [g!"vcs", g!"commit-id"] commit ∧ p = pkg g!"PyPI" name version commit

end Osv.Spec
