import Verif.Model.OsvPanic
import Verif.Model.World
/-! # The world with panics of the version comparison -/
namespace Osv

/-- Checks of local databases panic when the model of `pkg/database/mem-check.go:71-79` with panics does: `parses` says which versions
`semantic.MustParse` accepts. Earlier checks did not panic, or the program would not have got here. -/
def World.FollowsComparison (W : World) {S : Sorter} (T : PanicSorter S) (parses : Ecosystem → Str → Bool) : Prop :=
  ∀ (c : DBConfig) (offline : Bool) (names : List Str) (n : Nat) (pkgs : List PackageDetails),
    W.panics c offline names n pkgs =
      (((HeapDB.load (advisoriesOf W.load c offline) names).check S W.sem (W.history c n)).2.checkP T parses W.sem pkgs).isNone

end Osv
