import Verif.Props.C02
/-! # C11 Local check results align with the packages -/
namespace Osv
open Spec

/-- One result per package, for every state of the database. -/
theorem C11_length (S : Sorter) (sem : Sem) (db : HeapDB) (pkgs : List PackageDetails) :
    (db.check S sem pkgs).1.length = pkgs.length := by
  induction pkgs generalizing db with
  | nil => rfl
  | cons p ps ih => simp [HeapDB.check, ih]

theorem check_append (S : Sorter) (sem : Sem) (db : HeapDB) (ps qs : List PackageDetails) :
    db.check S sem (ps ++ qs) =
      ((db.check S sem ps).1 ++ ((db.check S sem ps).2.check S sem qs).1,
       ((db.check S sem ps).2.check S sem qs).2) := by
  induction ps generalizing db with
  | nil => rfl
  | cons p ps ih => simp [HeapDB.check, ih]

/-- In every state, the i-th result is the result for the i-th package on the database as the earlier
packages left it. -/
theorem C11_positional (S : Sorter) (sem : Sem) (db : HeapDB) (pkgs : List PackageDetails)
    (i : Nat) (hi : i < pkgs.length) :
    (db.check S sem pkgs).1[i]? = some ((db.check S sem (pkgs.take i)).2.affecting S sem pkgs[i]).1 := by
  have hsplit : pkgs = pkgs.take i ++ pkgs[i] :: pkgs.drop (i + 1) := by simp
  have hlen : (pkgs.take i).length = i := by simp; omega
  conv => lhs; rw [hsplit, check_append]
  rw [List.getElem?_append_right (by rw [C11_length, hlen]; omega), C11_length, hlen, Nat.sub_self]
  rfl

/-- The i-th result of a check is what checking the i-th package alone on a freshly loaded database gives,
although the packages before it may have reordered events. -/
theorem C11_aligned (S : Sorter) (sem : Sem) (os : List OSV) (names : List Str) (pkgs : List PackageDetails)
    (i : Nat) (hi : i < pkgs.length)
    (hc : CmpLaws (sem pkgs[i].compareAs)) (hw : ∀ o ∈ os, WellFormedRanges (sem pkgs[i].compareAs) o) :
    (((HeapDB.load os names).check S sem pkgs).1[i]'(by rw [C11_length]; exact hi)).map
        (fun j => os.getD j default) =
      (MemDB.loadAll os names).vulnerabilitiesAffectingPackage S sem pkgs[i] := by
  have key' := List.getElem?_eq_some_iff.mp (C11_positional S sem (HeapDB.load os names) pkgs i hi)
  obtain ⟨_, key'⟩ := key'
  rw [key']
  exact C02_refines_pure_partial S sem os names (pkgs.take i) pkgs[i] hc hw

/-- The pure check is a map over the packages. -/
theorem C11_pure (S : Sorter) (sem : Sem) (db : MemDB) (pkgs : List PackageDetails) :
    (db.check S sem pkgs).length = pkgs.length ∧
    ∀ i (hi : i < pkgs.length), (db.check S sem pkgs)[i]? =
      some (db.vulnerabilitiesAffectingPackage S sem pkgs[i]) := by
  unfold MemDB.check
  refine ⟨by simp, ?_⟩
  intro i hi
  simp [hi]

example : let o : OSV := { id := g!"A", affected := [{ package := ⟨g!"foo", g!"npm"⟩, versions := [g!"1"] }] }
    ((HeapDB.load [o] []).check Sorter.insertion numSem
      [{ name := g!"bar", ecosystem := g!"npm" }, { name := g!"foo", version := g!"1", ecosystem := g!"npm" }]).1
      = [[], [0]] := by decide

end Osv
