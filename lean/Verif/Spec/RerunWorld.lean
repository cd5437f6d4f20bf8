import Verif.Model.WorldApi
import Verif.Model.WorldCrash
import Verif.Props.C39Exact
import Verif.Spec.Rerun
/-! # Running the command again with its parsers and databases -/
namespace Osv.Spec

/-- Two runs in the same world: the same files, answers of servers, version comparison and cache. What may differ is the order in
which parsers iterate over maps and how the goroutines of API checks interleave. -/
structure SameWorld (S : Sorter) {T : PanicSorter S} (parses : Ecosystem → Str → Bool) (A : DBConfig → Nat → ApiEnv)
    (W W' : World) : Prop where
  load : W'.load = W.load
  sem : W'.sem = W.sem
  history : W'.history = W.history
  warns : W'.warns = W.warns
  files : SameFiles W.parsers W'.parsers
  orders : IterOk W.parsers
  orders' : IterOk W'.parsers
  api : W.FollowsAPI S A
  api' : W'.FollowsAPI S A
  diagnostics : ∀ c size n pkgs, (W'.api c size n pkgs).2 = (W.api c size n pkgs).2
  panics : W.FollowsComparison T parses
  panics' : W'.FollowsComparison T parses

end Osv.Spec
