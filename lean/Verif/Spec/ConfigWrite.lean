import Verif.Spec.YamlFiles
/-! # What a config file may hold besides the config -/
namespace Osv.Spec
open Str

/-- The document has nothing but what a config needs: the keys of the config, and in the databases the keys of a database. Every key is
plain text. -/
def OnlyKeys (allowed : List Str) (n : YNode) : Prop :=
  ∃ es, n = .map es ∧ ∀ e ∈ es, ∃ k, k ∈ allowed ∧ e.1 = .scalar k false

def OnlyConfig (n : YNode) : Prop :=
  OnlyKeys [g!"ignore", g!"extra-databases"] n ∧
  ∀ l, YAt n [g!"extra-databases"] (.seq l) → ∀ d ∈ l, OnlyKeys [g!"url", g!"name", g!"type", g!"working-directory"] d

/-- Two documents have the same text at every path that does not begin with the ignores. -/
def SameElsewhere (n n' : YNode) : Prop :=
  ∀ k ks s, k ≠ g!"ignore" → (YAt n (k :: ks) (.scalar s false) ↔ YAt n' (k :: ks) (.scalar s false))

end Osv.Spec
