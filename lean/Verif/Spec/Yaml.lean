import Verif.Go.Yaml
import Verif.Spec.ReportJson
/-!
# What a YAML document says

Stated on the tree of nodes: where a value is, which text it has, and which shapes are accepted.
-/
namespace Osv.Spec
open Str

/-- The mapping `n` has the value `v` under the key `k`. -/
def YEntry (n : YNode) (k : Str) (v : YNode) : Prop := ∃ es, n = .map es ∧ (YNode.scalar k false, v) ∈ es

def YNull (n : YNode) : Prop := ∃ s, n = .scalar s true

/-- The value at a path of keys. -/
inductive YAt : YNode → List Str → YNode → Prop
  | here (n : YNode) : YAt n [] n
  | step {n v w : YNode} {k : Str} {ks : List Str} : YEntry n k v → YAt v ks w → YAt n (k :: ks) w

/-- The text at a path; empty if there is none. -/
def YText (n : YNode) (path : List Str) (s : Str) : Prop :=
  YAt n path (.scalar s false) ∨ (∀ t, ¬ YAt n path (.scalar t false)) ∧ s = []

/-- The text of a key. -/
def ykey (e : YNode × YNode) : Str := match e.1 with
  | .scalar s _ => s
  | _ => []

/-- The keys of a mapping are scalars, and no two of them have the same text. -/
def YKeys (es : List (YNode × YNode)) : Prop := (∀ e ∈ es, ∃ s b, e.1 = .scalar s b) ∧ (es.map ykey).Nodup

def YIsText (n : YNode) : Prop := ∃ s b, n = .scalar s b

/-- A mapping whose values under the given keys have the given shapes, or null. -/
def YIsStruct (shapes : List (Str × (YNode → Prop))) (n : YNode) : Prop :=
  YNull n ∨ ∃ es, n = .map es ∧ YKeys es ∧ ∀ x ∈ shapes, ∀ v, YEntry n x.1 v → x.2 v

/-- A mapping whose values have the given shape, or null. -/
def YIsMapOf (P : YNode → Prop) (n : YNode) : Prop :=
  YNull n ∨ ∃ es, n = .map es ∧ YKeys es ∧ ∀ k v, YEntry n k v → P v

/-- A sequence whose items have the given shape unless they are null, or null. -/
def YIsListOf (P : YNode → Prop) (n : YNode) : Prop :=
  YNull n ∨ ∃ l, n = .seq l ∧ ∀ v ∈ l, ¬ YNull v → P v

/-- The items of the sequence at a path that are not null; none if there is no sequence. -/
def YItems (n : YNode) (path : List Str) (l : List YNode) : Prop :=
  (∃ all, YAt n path (.seq all) ∧ l = all.filter fun v => match v with | .scalar _ true => false | _ => true) ∨
  (∀ all, ¬ YAt n path (.seq all)) ∧ l = []

end Osv.Spec
