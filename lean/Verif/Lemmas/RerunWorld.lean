import Verif.Lemmas.Rerun
import Verif.Model.WorldApi
import Verif.Model.WorldCrash
import Verif.Props.C39Exact
/-! # Running the command again with its parsers and databases: lemmas -/
namespace Osv.Rerun
open Spec

/-! ### Goroutines -/

/-- All interleavings without an error leave the same slots. -/
theorem slots {ε β : Type} {n limit : Nat} {task : Nat → Except ε β} {s t : EGState ε β} (hs : EG.Reachable n limit task s)
    (hfs : EG.Final n s) (es : s.err = none) (ht : EG.Reachable n limit task t) (hft : EG.Final n t) (et : t.err = none) :
    s.slots = t.slots := by
  apply List.ext_getElem?
  intro i
  have ls := (EG.inv_reachable hs).len
  have lt := (EG.inv_reachable ht).len
  by_cases hi : i < n
  · obtain ⟨b, hb, h1⟩ := EG.final_ok hs hfs es i hi
    obtain ⟨b', hb', h2⟩ := EG.final_ok ht hft et i hi
    rw [hb] at hb'; cases hb'
    rw [h1, h2]
  · rw [List.getElem?_eq_none (by omega), List.getElem?_eq_none (by omega)]

theorem fetched (S : Sorter) (A : ApiEnv) (ids : List Str) (a b : List OSV) (ha : FetchAll S A ids a) (hb : FetchAll S A ids b) : a = b := by
  obtain ⟨s, hs, hfs, rfl⟩ := ha
  obtain ⟨t, ht, hft, rfl⟩ := hb
  have ok : ∀ {u : EGState ApiErr OSV}, EG.Reachable ids.length 200 (A.fetchTask ids) u → EG.Final ids.length u → u.err = none := by
    intro u hu hfu
    cases he : u.err with
    | none => rfl
    | some e =>
      obtain ⟨i, -, h⟩ := EG.final_err hu hfu e he
      cases h
  rw [slots hs hfs (ok hs hfs) ht hft (ok ht hft)]

/-- A check with the API gives the same answer under every interleaving, or fails under every one. -/
theorem answered (S : Sorter) (A : ApiEnv) (size : Nat) (pkgs : List PackageDetails) (a b : Except ApiErr (List (List OSV)))
    (ha : APICheck S A size pkgs a) (hb : APICheck S A size pkgs b) : (a.mapError fun _ => ()) = b.mapError fun _ => () := by
  obtain ⟨bs, hbs, s, hs, hfs, ra⟩ := ha
  obtain ⟨bs', hbs', t, ht, hft, rb⟩ := hb
  rw [hbs] at hbs'; cases hbs'
  cases es : s.err with
  | some e =>
    obtain ⟨i, hi, hfail⟩ := EG.final_err hs hfs e es
    obtain ⟨e', et⟩ := EG.final_err_of_task ht hft hi hfail
    rw [es] at ra
    rw [et] at rb
    rw [ra, rb]
    rfl
  | none =>
    cases et : t.err with
    | some e =>
      obtain ⟨i, hi, hfail⟩ := EG.final_err ht hft e et
      obtain ⟨e', es'⟩ := EG.final_err_of_task hs hfs hi hfail
      rw [es] at es'; cases es'
    | none =>
      rw [es] at ra
      rw [et] at rb
      obtain ⟨o, ho, ra⟩ := ra
      obtain ⟨o', ho', rb⟩ := rb
      rw [slots hs hfs es ht hft et] at ho ra
      rw [ra, rb, fetched S A _ o o' ho ho']

/-! ### Loading looks at the package names as a set -/

theorem empty {a b : List Str} (h : SameMembers a b) : decide (a.length ≠ 0) = decide (b.length ≠ 0) := by
  cases a with
  | nil =>
    cases b with
    | nil => rfl
    | cons x b => exact absurd ((h x).2 (by simp)) (by simp)
  | cons x a =>
    cases b with
    | nil => exact absurd ((h x).1 (by simp)) (by simp)
    | cons y b => rfl

theorem might {a b : List Str} (h : SameMembers a b) (o : OSV) : mightAffectPackages o a = mightAffectPackages o b := by
  unfold mightAffectPackages
  congr 1
  funext x
  rw [Bool.eq_iff_iff, List.contains_iff_mem, List.contains_iff_mem]
  exact h _

theorem add {a b : List Str} (h : SameMembers a b) (db : MemDB) (o : OSV) : db.addVulnerability o a = db.addVulnerability o b := by
  unfold MemDB.addVulnerability
  rw [empty h, might h]

theorem visit {a b : List Str} (h : SameMembers a b) (decode : Str → Option OSV) : walkVisit decode a = walkVisit decode b := by
  funext n c s
  unfold walkVisit
  simp only [add h]

mutual
theorem walk {a b : List Str} (h : SameMembers a b) (decode : Str → Option OSV) (name : Str) :
    ∀ (t : FNode) (s : WalkState), walkNode decode a name t s = walkNode decode b name t s
  | .gone, _ => by rw [walkNode, walkNode]
  | .file c, s => by rw [walkNode, walkNode, visit h]
  | .locked, s => by rw [walkNode, walkNode]
  | .dir es, s => by rw [walkNode, walkNode, visit h]; exact walks h decode es _
theorem walks {a b : List Str} (h : SameMembers a b) (decode : Str → Option OSV) :
    ∀ (t : FList) (s : WalkState), walkList decode a t s = walkList decode b t s
  | .nil, _ => by rw [walkList, walkList]
  | .cons n t rest, s => by
    rw [walkList, walkList, walk h decode n t s]
    congr 1
    funext s'
    exact walks h decode rest s'
end

theorem loadDB_same {a b : List Str} (h : SameMembers a b) (L : LoadEnv) (c : DBConfig) (offline : Bool) (size : Int) :
    loadDB L c offline size a = loadDB L c offline size b := by
  unfold loadDB newZippedDB newDirDB loadZipEntries loadZipFile
  simp only [add h, walk h]

theorem heap_same {a b : List Str} (h : SameMembers a b) (os : List OSV) : HeapDB.load os a = HeapDB.load os b := by
  unfold HeapDB.load addIndex
  simp only [empty h, might h]

end Osv.Rerun
