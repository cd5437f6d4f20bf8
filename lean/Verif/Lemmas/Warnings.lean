import Verif.Lemmas.Databases
/-!
# Which diagnostics of databases appear in a run
-/
namespace Osv
open Spec

namespace Warnings

/-- The databases that wrote diagnostics, in order. -/
def warned (r : RState) : List Str := r.events.filterMap fun e => match e with | .warning n => some n | _ => none

theorem mem_warned (r : RState) (n : Str) : n ∈ warned r ↔ .warning n ∈ r.events := by
  unfold warned
  rw [List.mem_filterMap]
  constructor
  · rintro ⟨e, he, h⟩
    cases e <;> simp at h
    subst h
    exact he
  · intro h
    exact ⟨_, h, rfl⟩

@[simp] theorem warned_text (r : RState) (m : TextMsg) : warned (r.printText m) = warned r := by simp [warned, RState.printText]
@[simp] theorem warned_error (r : RState) (m : ErrMsg) : warned (r.printError m) = warned r := by simp [warned, RState.printError]
@[simp] theorem warned_result (r : RState) (x : Result) : warned (r.printResult x) = warned r := by
  unfold RState.printResult
  split <;> simp [warned]
@[simp] theorem warned_json (r : RState) : warned r.printJSON = warned r := by simp [warned, RState.printJSON]
@[simp] theorem warned_warn (r : RState) (n : Str) (b : Bool) : warned (r.warn n b) = warned r ++ if b then [n] else [] := by
  unfold RState.warn
  cases b <;> simp [warned]

theorem warned_foldl {α β : Type} (g : α → β → α) (r : α → RState) (h : ∀ a b, warned (r (g a b)) = warned (r a)) (l : List β) (a : α) :
    warned (r (l.foldl g a)) = warned (r a) := by
  induction l generalizing a with
  | nil => rfl
  | cons b l ih => exact (ih _).trans (h a b)

theorem warned_dropped (r : RState) (p : Str) (es : List RawDBErr) : warned (printDropped r p es) = warned r :=
  warned_foldl (fun r e => RState.printError r (.invalidDatabase p e)) id (fun _ _ => warned_error _ _) es r

theorem warned_find (env : Env) (r : RState) (args : List Str) (g : Str) : warned (findAllLockfiles env r args g).1 = warned r := by
  unfold findAllLockfiles
  split
  · rfl
  · refine warned_foldl (findStep env g) (·.1) (fun acc a => ?_) args (r, [], false)
    unfold findStep
    dsimp only
    generalize findLockfiles env (splitParseAs a).2 _ = res
    split <;> simp

theorem warned_read (S : Sorter) (env : Env) (r : RState) (paths args : List Str) (cl : Bool) (c : Config) :
    warned (readAllLockfiles S env r paths args cl c).r = warned r := by
  unfold readAllLockfiles
  refine warned_foldl (readStep S env args cl) (·.r) (fun s p => ?_) paths ⟨r, [c], 0, []⟩
  unfold readStep
  dsimp only
  split
  · split
    · rfl
    · exact warned_dropped _ _ _
  · split <;> rfl

theorem warned_config (env : Env) (f : Flags) (r : RState) : warned (startConfig env f r).1 = warned r := by
  unfold startConfig
  split
  · rfl
  · split
    · split
      · exact warned_error _ _
      · exact warned_dropped _ _ _
    · rfl

theorem warned_loadStep (env : Env) (f : Flags) (names : List Str) (cs : List DBConfig) (acc : RState × List DB × Bool) :
    warned (cs.foldl (loadStep env f names) acc).1 =
      warned acc.1 ++ (cs.filter fun c => (env.load c f.offline f.batchSize names).2).map (·.name) := by
  induction cs generalizing acc with
  | nil => simp
  | cons c cs ih =>
    rw [List.foldl_cons, ih]
    have : warned (loadStep env f names acc c).1 = warned acc.1 ++ if (env.load c f.offline f.batchSize names).2 then [c.name] else [] := by
      unfold loadStep
      dsimp only
      cases (env.load c f.offline f.batchSize names).1 <;> simp
    rw [this]
    cases hw : (env.load c f.offline f.batchSize names).2 <;> simp [hw, List.filter_cons]

theorem warned_load (env : Env) (f : Flags) (hl : f.listPackages = false) (r : RState) (cs : List DBConfig) (names : List Str) :
    warned (loadDatabases env f r cs names).1 =
      warned r ++ (cs.filter fun c => (env.load c f.offline f.batchSize names).2).map (·.name) := by
  unfold loadDatabases
  rw [hl]
  simp only [Bool.false_eq_true, if_false, warned_text]
  rw [warned_loadStep, warned_text]

theorem warned_check (n : Nat) (l : Lockfile) (dbs : List DB) (acc : RState × List (List (List OSV))) :
    warned (dbs.foldl (checkStep n l) acc).1 =
      warned acc.1 ++ (dbs.filter fun db => (db.check n l.packages).2).map (·.name) := by
  induction dbs generalizing acc with
  | nil => simp
  | cons db dbs ih =>
    rw [List.foldl_cons, ih]
    have : warned (checkStep n l acc db).1 = warned acc.1 ++ if (db.check n l.packages).2 then [db.name] else [] := by
      unfold checkStep
      dsimp only
      cases (db.check n l.packages).1 <;> simp
    rw [this]
    cases hw : (db.check n l.packages).2 <;> simp [hw, List.filter_cons]

/-- The databases that write diagnostics when the `i`-th file is checked. -/
def checkWarns (dbs : List DB) (cells : List Config) (i : Nat) (x : FileEntry) : List Str :=
  if x.err then []
  else ((forConfigs dbs (cells.getD x.config {}).databases).filter fun db => (db.check i x.lockf.packages).2).map (·.name)

def loopWarns (dbs : List DB) (cells : List Config) : Nat → List FileEntry → List Str
  | _, [] => []
  | i, x :: xs => checkWarns dbs cells i x ++ loopWarns dbs cells (i + 1) xs

theorem warned_loopStep (f : Flags) (hl : f.listPackages = false) (dbs : List DB) (cells : List Config) (s : LoopState) (x : FileEntry)
    (h : CellsSame f s.cells cells) : warned (loopStep f dbs s x).r = warned s.r ++ checkWarns dbs cells s.i x := by
  have hb : warned (if s.i ≥ 1 then s.r.printText .blank else s.r) = warned s.r := by split <;> simp
  unfold loopStep checkWarns
  generalize (if s.i ≥ 1 then s.r.printText .blank else s.r) = r0 at hb
  dsimp only
  cases he : x.err with
  | true => simp [hb]
  | false =>
    simp only [Bool.false_eq_true, if_false, hl]
    have hdb : (if f.noConfigIgnores then { s.cells.getD x.config {} with ignore := [] } else s.cells.getD x.config {} : Config).databases =
        (cells.getD x.config {}).databases := by
      obtain ⟨-, h2, -⟩ := h x.config
      cases f.noConfigIgnores <;> exact h2
    generalize (if f.noConfigIgnores then { s.cells.getD x.config {} with ignore := [] } else s.cells.getD x.config {} : Config) = c at hdb
    rw [hdb]
    simp only [warned_result, checkLockfile, checkAll]
    rw [warned_check]
    simp only [warned_text]
    have hf : ∀ (l : List DB) (r : RState), warned (l.foldl (fun (r : RState) (db : DB) => r.printText (.usingDb db.name db.info)) r) =
        warned r := warned_foldl _ id (fun _ _ => warned_text _ _)
    rw [hf]
    unfold printUsingConfig
    split <;> simp [hb]

theorem warned_loop (f : Flags) (hl : f.listPackages = false) (dbs : List DB) (cells : List Config) (files : List FileEntry) (s : LoopState)
    (h : CellsSame f s.cells cells) : warned (files.foldl (loopStep f dbs) s).r = warned s.r ++ loopWarns dbs cells s.i files := by
  induction files generalizing s with
  | nil => simp [loopWarns]
  | cons x xs ih =>
    obtain ⟨h1, h2, -⟩ := loopStep_fun f dbs cells s x h
    rw [List.foldl_cons, ih _ h1, warned_loopStep f hl dbs cells s x h, h2]
    simp [loopWarns]

theorem mem_loopWarns (dbs : List DB) (cells : List Config) (i : Nat) (files : List FileEntry) (n : Str) :
    n ∈ loopWarns dbs cells i files ↔ ∃ k x, files[k]? = some x ∧ n ∈ checkWarns dbs cells (i + k) x := by
  induction files generalizing i with
  | nil => simp [loopWarns]
  | cons x xs ih =>
    rw [loopWarns, List.mem_append, ih]
    constructor
    · rintro (h | ⟨k, y, hy, h⟩)
      · exact ⟨0, x, rfl, h⟩
      · exact ⟨k + 1, y, hy, by rwa [show i + (k + 1) = i + 1 + k by omega]⟩
    · rintro ⟨k, y, hy, h⟩
      cases k with
      | zero =>
        cases hy
        exact .inl h
      | succ k => exact .inr ⟨k, y, hy, by rwa [show i + 1 + k = i + (k + 1) by omega]⟩

theorem warned_write (env : Env) (r : RState) (per : SMap (List Str)) : warned (writeUpdatedConfigs env r per).1 = warned r := by
  unfold writeUpdatedConfigs
  dsimp only
  have h0 : warned (if per.length ≠ 0 then r.printText .blank else r) = warned r := by split <;> simp
  rw [← h0]
  generalize (if per.length ≠ 0 then r.printText .blank else r) = r0
  refine warned_foldl _ (fun acc : RState × (Str → ConfigFile) => acc.1) (fun acc e => ?_) per (r0, env.config)
  dsimp only
  split <;> simp

/-- The diagnostics of a run: of the loads, and then of the checks. -/
theorem warned_run (S : Sorter) (env : Env) (f : Flags) (hl : f.listPackages = false) (p : LoopState × List DB × List FileEntry)
    (hp : runPrep S env f = .inr p) :
    warned (runBody S env f).r =
      ((neededConfigs env f (readOf S env f)).filter fun c =>
        (env.load c f.offline f.batchSize (allPackageNames env (readOf S env f).files)).2).map (·.name) ++
      loopWarns p.2.1 p.1.cells 0 (readOf S env f).files := by
  obtain ⟨h1, -, -⟩ := prep_read S env f p hp
  obtain ⟨-, hi, -, -⟩ := prep_inv S env f p hp
  have hstart : warned p.1.r = ((neededConfigs env f (readOf S env f)).filter fun c =>
        (env.load c f.offline f.batchSize (allPackageNames env (readOf S env f).files)).2).map (·.name) := by
    have hfind := warned_find env { outputAsJSON := f.json } f.args f.parseAs
    unfold runPrep at hp
    unfold readOf
    dsimp only at hp ⊢
    generalize findAllLockfiles env { outputAsJSON := f.json } f.args f.parseAs = found at *
    split at hp
    · cases hp
    split at hp
    · cases hp
    split at hp
    · cases hp
    split at hp
    · cases hp
    have hsc := warned_config env f found.1
    rcases hst : startConfig env f found.1 with ⟨r, o⟩
    rw [hst] at hp hsc
    cases o with
    | none => cases hp
    | some cc =>
      obtain ⟨c, cl⟩ := cc
      dsimp only at hp ⊢
      cases hp
      show warned (loadDatabases env f _ _ _).1 = _
      rw [warned_load env f hl, warned_read]
      dsimp only at hsc
      rw [hsc, hfind]
      rfl
  have hbody := runBody_prep S env f
  rw [hp] at hbody
  dsimp only at hbody
  rw [hbody, h1]
  unfold finish
  dsimp only
  have hloop := warned_loop f hl p.2.1 p.1.cells (readOf S env f).files p.1 (fun _ => CfgSame.refl _ _)
  rw [hi, hstart] at hloop
  split
  · rw [warned_write, hloop]
  · exact hloop

theorem warning_iff (S : Sorter) (env : Env) (f : Flags) (n : Str) :
    .warning n ∈ (run S env f).events ↔ n ∈ warned (runBody S env f).r := by
  rw [mem_warned]
  unfold run
  dsimp only
  split
  · simp [RState.printJSON]
  · rfl

end Warnings
end Osv
