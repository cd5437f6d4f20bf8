import Verif.Spec.Text
import Verif.Model.Osv
/-! # What a line of a mix.lock stands for -/
namespace Osv.Spec
open Osv Str

/-- The pieces of a text between commas that are not empty. -/
def commaFields (s : Str) : List Str := (splitChar ',' s).filter fun p => !p.isEmpty

/-- The line reads `  "name": {…,`. -/
def MixHead (line name : Str) : Prop :=
  ∃ indent mid, indent ≠ [] ∧ (∀ c ∈ indent, c = ' ') ∧ name ≠ [] ∧ (∀ c ∈ name, isWord c = true) ∧ mid ≠ [] ∧
    line = indent ++ '"' :: (name ++ g!"\": {" ++ mid ++ g!",")

/-- `s` without one quote at its start and one at its end. -/
inductive Unquoted : Str → Str → Prop
  | both (t : Str) : Unquoted ('"' :: (t ++ ['"'])) t
  | left (t : Str) : (∀ u, t ≠ u ++ ['"']) → Unquoted ('"' :: t) t
  | right (t : Str) : (∀ u, t ++ ['"'] ≠ '"' :: u) → Unquoted (t ++ ['"']) t
  | neither (t : Str) : (∀ u, t ≠ '"' :: u) → (∀ u, t ≠ u ++ ['"']) → Unquoted t t

/-- The trimmed and unquoted text of a field. -/
def MixField (field value : Str) : Prop := ∃ t, Trimmed field t ∧ Unquoted t value

/-- Package of a line: the third field is the version and the fourth the checksum; if the first ends in `:git` the
third is the commit and there is no version. -/
def MixEntry (line : Str) (p : PackageDetails) : Prop :=
  ∃ name f0 f1 f2 f3 more v c, MixHead line name ∧ commaFields line = f0 :: f1 :: f2 :: f3 :: more ∧
    MixField f2 v ∧ MixField f3 c ∧
    (((∃ t, f0 = t ++ g!":git") ∧ p = ⟨name, [], v, g!"Hex", g!"Hex"⟩) ∨
     ((¬ ∃ t, f0 = t ++ g!":git") ∧ p = ⟨name, v, c, g!"Hex", g!"Hex"⟩))

end Osv.Spec
