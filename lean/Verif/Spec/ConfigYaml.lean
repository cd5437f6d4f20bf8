import Verif.Spec.YamlDoc
/-! # How strings are written in a config -/
namespace Osv.Spec
open Osv

/-- A way to write strings on one line such that they are read back. -/
def YmlStyle (style : Str → Str) : Prop := ∀ s, YmlScalar false (style s) (.scalar s false) ∧ ∀ c ∈ style s, YmlChar c

end Osv.Spec
