import Verif.Model.Api
import Verif.Model.World
/-! # API databases of a run -/
namespace Osv

/-- The checks of API databases behave like the model of `pkg/database/api-check.go`, `A c n` being the network during the `n`-th
check with the database of `c`. Any interleaving of the goroutines may have happened. Simplification: of an error `main.go` only
prints its text, so it is dropped. -/
def World.FollowsAPI (S : Sorter) (W : World) (A : DBConfig → Nat → ApiEnv) : Prop :=
  ∀ (c : DBConfig) (size : Int) (n : Nat) (pkgs : List PackageDetails), 1 ≤ size →
    ∃ res, APICheck S (A c n) size.toNat pkgs res ∧ (W.api c size n pkgs).1 = res.mapError fun _ => ()

end Osv
