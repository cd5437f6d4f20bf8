import Verif.Model.Main
/-!
# What can be observed of a run

These definitions only look at the events of a run, not at how they came about.
-/
namespace Osv.Spec

/-- The event is an error message. -/
def IsError (e : Event) : Prop := ∃ m, e = .error m

/-- The message says that a database could not be loaded, or that a lockfile or its config could not be read. -/
def HardMsg (m : ErrMsg) : Prop := (∃ n, m = .dbLoad n) ∨ ∃ p, m = .lockfile p

/-- The event goes to stdout. -/
def OnStdout : Event → Prop
  | .text s _ => s = .stdout
  | .error _ => False
  | .result _ => True
  | .json _ => True
  | .warning _ => False

instance (e : Event) : Decidable (OnStdout e) := by cases e <;> unfold OnStdout <;> infer_instance

/-- The result lists a vulnerability that is not ignored. -/
def Vulnerable : Result → Prop
  | .lockfile _ => False
  | .report r => ∃ p ∈ r.packages, ∃ v, v ∈ p.vulnerabilities

/-- The results shown by an event. -/
def resultsOf : Event → List Result
  | .result x => [x]
  | .json xs => xs
  | _ => []

/-- All results shown in a run, in order. -/
def shown (es : List Event) : List Result := es.flatMap resultsOf

/-- The lockfile a result is about. -/
def lockfileOf : Result → Lockfile
  | .lockfile l => l
  | .report r => r.lockfile

/-- The program gets past the handling of its arguments: lockfiles are found and an explicit config loads. -/
def Started (f : Flags) (es : List Event) : Prop :=
  f.printVersion = false ∧ f.listEcosystems = false ∧ ∀ m, .error m ∈ es →
    m ≠ .noPaths ∧ (∀ n, m ≠ .badParseAs n) ∧ ∀ e, m ≠ .badConfig e

/-- `p` is the path in the argument `arg`: everything, or what follows the first colon. -/
def PathPart (arg p : Str) : Prop :=
  (':' ∉ arg ∧ p = arg) ∨ ∃ pre, ':' ∉ pre ∧ arg = pre ++ ':' :: p

/-- The path can be opened and, if it is a directory, listed. -/
def Readable (i : PathInfo) : Prop := i = .file ∨ ∃ es, i = .dir es

/-- The config files agree, except that those of the second may ignore more. -/
def MoreIgnores (a b : Str → ConfigFile) : Prop :=
  ∀ p, (∃ r r', a p = .ok r ∧ b p = .ok r' ∧ r.databases = r'.databases ∧ r.ignore ⊆ r'.ignore) ∨
    ((∀ r, a p ≠ .ok r) ∧ b p = a p)

/-- The same packages with the same vulnerabilities, of which the second report ignores more. -/
def PkgNarrower (p p' : PkgReport) : Prop :=
  p'.pkg = p.pkg ∧ p'.vulnerabilities.Sublist p.vulnerabilities ∧ p.ignored.Sublist p'.ignored ∧
    (p'.vulnerabilities ++ p'.ignored).Perm (p.vulnerabilities ++ p.ignored)

/-- The second result is the first with more vulnerabilities ignored. -/
def Narrower : Result → Result → Prop
  | .lockfile l, .lockfile l' => l = l'
  | .report r, .report r' => r.lockfile = r'.lockfile ∧ r.packages.length = r'.packages.length ∧
      ∀ (k : Nat) p p', r.packages[k]? = some p → r'.packages[k]? = some p' → PkgNarrower p p'
  | _, _ => False

/-- The IDs of all vulnerabilities a result mentions, ignored or not. -/
def idsOf : Result → List Str
  | .lockfile _ => []
  | .report r => r.packages.flatMap fun p => (p.vulnerabilities ++ p.ignored).map (·.id)

end Osv.Spec
