import Verif.Lemmas.RerunWorld
import Verif.Spec.RerunWorld
import Verif.Spec.RunSamples
import Verif.Props.C83World
import Verif.Props.C81
/-!
# C84 Running the command again gives the same result

Go leaves open the order in which maps are iterated and how goroutines interleave. This says when none of that can be seen: exit code,
everything printed and the config files are the same. It is not always so, as packages of one name and version are not put in order
(`C84_tie_counterexample`) and as map order can decide which packages are read (C39).
-/
namespace Osv
open Spec

/-- The full claim, with parsers that give the same packages in any order. False: `C84_order_counterexample`. -/
def C84_order_full : Prop := ∀ (S : Sorter) (env env' : Env) (f : Flags), Rerun env env' f → runP S env' f = runP S env f

/-- The same result of a second run, if no two different packages of a file share name and version. Missing for the full claim: files
with such packages. -/
theorem C84_order_partial (S : Sorter) (env env' : Env) (f : Flags) (h : Rerun env env' f)
    (ht : ∀ want q, IsParsed env f want q → NoTies (env.parse (parserOf want q) q).1) : runP S env' f = runP S env f := by
  unfold runP
  rw [Rerun.body h ht, h.config]

/-- The full claim for the command with its parsers and databases. False: `C84_counterexample`. -/
def C84_full : Prop :=
  ∀ (S : Sorter) (T : PanicSorter S) (parses : Ecosystem → Str → Bool) (A : DBConfig → Nat → ApiEnv) (env : Env)
    (iter' : List Str → List Str) (W W' : World) (f : Flags), SameWorld S (T := T) parses A W W' →
    (∀ l, (env.iter l).Perm l) → (∀ l, (iter' l).Perm l) →
    runP S ({ env with iter := iter' }.inWorld S W') f = runP S (env.inWorld S W) f

/-- The same result of a second run of the whole command, if for every file that is parsed the order of maps does not decide what is read
(`KeysOk`, exact by C39) and no two different packages share name and version. Missing for the full claim: other files. -/
theorem C84_partial (S : Sorter) (T : PanicSorter S) (parses : Ecosystem → Str → Bool) (A : DBConfig → Nat → ApiEnv) (env : Env)
    (iter' : List Str → List Str) (W W' : World) (f : Flags) (h : SameWorld S (T := T) parses A W W')
    (hi : ∀ l, (env.iter l).Perm l) (hi' : ∀ l, (iter' l).Perm l)
    (hk : ∀ want q, IsParsed env f want q → KeysOk W.parsers (parserOf want q) q)
    (ht : ∀ want q, IsParsed env f want q → ∀ r, parseFile W.parsers (parserOf want q) q = some r → NoTies r.1) :
    runP S ({ env with iter := iter' }.inWorld S W') f = runP S (env.inWorld S W) f := by
  apply C84_order_partial
  · refine ⟨rfl, rfl, rfl, rfl, rfl, rfl, hi, hi', ?_, ?_⟩
    · intro want q hp
      have hs := C39_table_partial _ _ h.files h.orders h.orders' (parserOf want q) q (hk want q ((Crash.parsed_inWorld env S W f want q).1 hp))
      unfold Env.inWorld
      dsimp only
      generalize parseFile W.parsers (parserOf want q) q = x at hs
      generalize parseFile W'.parsers (parserOf want q) q = y at hs
      cases x with
      | none =>
        cases y with
        | none => exact ⟨.refl _, rfl, rfl⟩
        | some y => cases hs
      | some x =>
        cases y with
        | none => cases hs
        | some y => exact ⟨hs.1.symm, hs.2.symm, rfl⟩
    · intro c names names' hn
      unfold Env.inWorld worldLoad
      dsimp only
      rw [h.load, h.sem, h.history, h.warns, ← Rerun.loadDB_same hn]
      refine ⟨?_, rfl⟩
      cases hl : loadDB W.load c f.offline f.batchSize names with
      | error e => rfl
      | panic => rfl
      | ok ld =>
        obtain ⟨name, ident, kind⟩ := ld
        dsimp only
        cases kind with
        | api size =>
          have hsize : 1 ≤ size := by
            unfold loadDB newZippedDB newAPIDB newDirDB at hl
            split at hl
            · split at hl
              · cases hl
              · cases hl
              · split at hl <;> cases hl
            split at hl
            · split at hl
              · cases hl
              split at hl
              · cases hl
              split at hl
              · cases hl
              · cases hl; omega
            split at hl
            · split at hl
              · cases hl
              split at hl
              · cases hl
              dsimp only at hl
              split at hl <;> cases hl
            · cases hl
          have : W'.api c size = W.api c size := by
            funext n pkgs
            obtain ⟨a, ha, ea⟩ := h.api c size n pkgs hsize
            obtain ⟨b, hb, eb⟩ := h.api' c size n pkgs hsize
            exact Prod.ext (by rw [ea, eb]; exact Rerun.answered S _ _ _ _ _ hb ha) (h.diagnostics c size n pkgs)
          dsimp only
          rw [this]
        | zip db at_ =>
          have : W'.panics c f.offline names' = W.panics c f.offline names := by
            funext n pkgs
            rw [h.panics, h.panics', h.load, h.sem, h.history, Rerun.heap_same hn]
          dsimp only
          rw [this, Rerun.heap_same hn]
        | dir db =>
          have : W'.panics c f.offline names' = W.panics c f.offline names := by
            funext n pkgs
            rw [h.panics, h.panics', h.load, h.sem, h.history, Rerun.heap_same hn]
          dsimp only
          rw [this, Rerun.heap_same hn]
  · intro want q hp
    have := ht want q ((Crash.parsed_inWorld env S W f want q).1 hp)
    show NoTies ((parseFile W.parsers (parserOf want q) q).getD ([], true)).1
    cases hx : parseFile W.parsers (parserOf want q) q with
    | none => exact fun a ha => by cases ha
    | some r => exact this r hx

/-! ### API checks -/

/-- The full claim for one check with the API: its outcome does not depend on the interleaving. False: `C84_api_counterexample`. -/
def C84_api_full : Prop := ∀ (S : Sorter) (A : ApiEnv) (size : Nat) (pkgs : List PackageDetails) (a b : Except ApiErr (List (List OSV))),
  APICheck S A size pkgs a → APICheck S A size pkgs b → a = b

/-- The interleaving can only decide which error is returned if several batches fail. Missing for the full claim: which one. -/
theorem C84_api_partial (S : Sorter) (A : ApiEnv) (size : Nat) (pkgs : List PackageDetails) (a b : Except ApiErr (List (List OSV)))
    (ha : APICheck S A size pkgs a) (hb : APICheck S A size pkgs b) :
    (∃ r, a = .ok r ∧ b = .ok r) ∨ ∃ e e', a = .error e ∧ b = .error e' := by
  have h := Rerun.answered S A size pkgs a b ha hb
  cases a <;> cases b
  · exact .inr ⟨_, _, rfl, rfl⟩
  · cases h
  · cases h
  · cases h; exact .inl ⟨_, rfl, rfl⟩

/-- A server that refuses the first request and does not know the second. -/
def C84_server : ApiEnv where
  post i _ := .response (if i = 0 then 500 else 404) none
  get _ _ := .failed
  parse _ := none
  decode _ := default

theorem C84_api_counterexample : ¬ C84_api_full := by
  intro h
  have hb : batchPkgs [samplePkg g!"a" g!"npm", samplePkg g!"b" g!"npm"] 1 =
      some [[samplePkg g!"a" g!"npm"], [samplePkg g!"b" g!"npm"]] := by decide +kernel
  have task : ∀ i, C84_server.batchTask [[samplePkg g!"a" g!"npm"], [samplePkg g!"b" g!"npm"]] i =
      .error (.unexpectedResponse (if i = 0 then 500 else 404)) := by
    intro i
    unfold ApiEnv.batchTask checkBatch C84_server
    dsimp only
    rw [if_pos (by split <;> decide)]
  have key : ∀ i j : Nat, (i = 0 ∧ j = 1) ∨ (i = 1 ∧ j = 0) →
      APICheck Sorter.insertion C84_server 1 [samplePkg g!"a" g!"npm", samplePkg g!"b" g!"npm"]
        (.error (.unexpectedResponse (if i = 0 then 500 else 404))) := by
    intro i j hij
    refine ⟨_, hb, ⟨2, [], [], [none, none], some (.unexpectedResponse (if i = 0 then 500 else 404))⟩, ?_, ⟨rfl, rfl, rfl⟩, rfl⟩
    have r0 := EG.Reachable.init (n := 2) (limit := 100) (task := C84_server.batchTask [[samplePkg g!"a" g!"npm"], [samplePkg g!"b" g!"npm"]])
    have r1 := r0.step (.launch _ (by decide) (by decide))
    have r2 := r1.step (.launch _ (by decide) (by decide))
    have r3 := r2.step (.fail _ i _ (by rcases hij with ⟨rfl, -⟩ | ⟨rfl, -⟩ <;> decide) (task i))
    have r4 := r3.step (.fail _ j _ (by rcases hij with ⟨rfl, rfl⟩ | ⟨rfl, rfl⟩ <;> decide) (task j))
    have r5 := r4.step (.release _ i (by simp))
    have r6 := r5.step (.release _ j (by rcases hij with ⟨rfl, rfl⟩ | ⟨rfl, rfl⟩ <;> simp))
    rcases hij with ⟨rfl, rfl⟩ | ⟨rfl, rfl⟩ <;> exact r6
  have := h _ _ _ _ _ _ (key 0 1 (.inl ⟨rfl, rfl⟩)) (key 1 0 (.inr ⟨rfl, rfl⟩))
  injection this with this
  revert this
  decide

/-! ### Witnesses -/

/-- A world with the given content of `package-lock.json` and order of its packages. -/
def C84_world (text : Str) (order : SMap NpmPackage → SMap NpmPackage) : World :=
  { sampleApiWorld with
    parsers := { sampleParsers with file := fun p => if p = g!"package-lock.json" then some text else none, iterNpm := order }
    panics := fun c offline names n pkgs =>
      (((HeapDB.load (advisoriesOf sampleApiWorld.load c offline) names).check Sorter.insertion sampleApiWorld.sem
        (sampleApiWorld.history c n)).2.checkP PanicSorter.insertion (fun _ _ => true) sampleApiWorld.sem pkgs).isNone }

theorem C84_world_orders (text : Str) (order : SMap NpmPackage → SMap NpmPackage) (h : IsOrder order) : IterOk (C84_world text order).parsers :=
  ⟨isOrder_id, isOrder_id, isTreeOrder_id, h, isOrder_id, isOrder_id, isOrder_id, isOrder_id, isOrder_id, isOrder_id, fun _ _ => isOrder_id⟩

theorem C84_world_same (text : Str) (order : SMap NpmPackage → SMap NpmPackage) (h : IsOrder order) :
    SameWorld Sorter.insertion (T := PanicSorter.insertion) (fun _ _ => true) (fun _ _ => sampleServer) (C84_world text id)
      (C84_world text order) where
  load := rfl
  sem := rfl
  history := rfl
  warns := rfl
  files := ⟨rfl, rfl, rfl, rfl, rfl, rfl, rfl, rfl⟩
  orders := C84_world_orders _ _ isOrder_id
  orders' := C84_world_orders _ _ h
  api := sampleApiWorld_follows _
  api' := sampleApiWorld_follows _
  diagnostics := fun _ _ _ _ => rfl
  panics := fun _ _ _ _ _ => rfl
  panics' := fun _ _ _ _ _ => rfl

def C84_env : Env := { sampleEnv with path := fun p => if p = g!"package-lock.json" then .file else .cannotOpen }

def C84_flags : Flags := { args := [g!"package-lock.json"], listPackages := true }

/-- Two packages of one name and version, from two commits. -/
def C84_tie : Str :=
  g!"{\"packages\":{\"node_modules/a\":{\"version\":\"1\",\"resolved\":\"github:a/b#abc\"},\"node_modules/b/node_modules/a\":{\"version\":\"1\",\"resolved\":\"github:a/b#def\"}}}"

/-- A check of `NpmKeysOk` that can be evaluated. -/
theorem npmKeysOk_of (c : Str)
    (h : ((Json.parse c).bind decNpmLockfile).all (fun o => o.all fun l => match l.packages with
      | some ps => ps.all fun x => ps.all fun y => decide (x.1 ≠ [] → y.1 ≠ [] → (npmPackage x.1 x.2).1 = (npmPackage y.1 y.2).1 →
          (npmPackage x.1 x.2).2 = (npmPackage y.1 y.2).2)
      | none => false) = true) (l : NpmLockfile) (hl : (Json.parse c).bind decNpmLockfile = some (some l)) : NpmKeysOk l := by
  rw [hl] at h
  unfold NpmKeysOk
  simp only [Option.all_some] at h
  cases hp : l.packages with
  | none => rw [hp] at h; cases h
  | some ps =>
    rw [hp] at h
    dsimp only at h ⊢
    intro x hx y hy
    exact of_decide_eq_true (List.all_eq_true.1 (List.all_eq_true.1 h x hx) y hy)

theorem C84_world_keys (text : Str) (order : SMap NpmPackage → SMap NpmPackage)
    (h : ∀ l, (Json.parse text).bind decNpmLockfile = some (some l) → NpmKeysOk l) :
    KeysOk (C84_world text order).parsers g!"package-lock.json" g!"package-lock.json" where
  npm _ := h
  nuget h := absurd h (by decide)
  pipenv h := absurd h (by decide)
  go h := absurd h (by decide)
  pnpm h := absurd h (by decide)

/-- Also where map order does not decide which packages are read, it can decide the order in which they are listed: `NoTies` cannot be
left out of `C84_partial`. -/
theorem C84_tie_counterexample :
    KeysOk (C84_world C84_tie id).parsers g!"package-lock.json" g!"package-lock.json" ∧
    runP Sorter.insertion (C84_env.inWorld Sorter.insertion (C84_world C84_tie List.reverse)) C84_flags ≠
      runP Sorter.insertion (C84_env.inWorld Sorter.insertion (C84_world C84_tie id)) C84_flags := by
  refine ⟨C84_world_keys _ _ (npmKeysOk_of _ (by decide +kernel)), ?_⟩
  intro h
  have := congrArg (fun e : Ended => e.result.events) h
  revert this
  decide +kernel

/-- Packages that are read depend on map order: `KeysOk` cannot be left out. -/
theorem C84_keys_counterexample :
    (∀ r, parseFile (C84_world C47_witness id).parsers g!"package-lock.json" g!"package-lock.json" = some r → NoTies r.1) ∧
    runP Sorter.insertion (C84_env.inWorld Sorter.insertion (C84_world C47_witness List.reverse)) C84_flags ≠
      runP Sorter.insertion (C84_env.inWorld Sorter.insertion (C84_world C47_witness id)) C84_flags := by
  constructor
  · intro r hr
    have h : parseFile (C84_world C47_witness id).parsers g!"package-lock.json" g!"package-lock.json" =
      some ([npm g!"a" g!"2" g!"abc"], false) := by decide +kernel
    rw [h] at hr
    cases hr
    decide
  · intro h
    have := congrArg (fun e : Ended => e.result.events) h
    revert this
    decide +kernel

theorem C84_counterexample : ¬ C84_full := by
  intro h
  exact C84_tie_counterexample.2 (h _ _ _ _ C84_env C84_env.iter _ _ C84_flags (C84_world_same C84_tie _ isOrder_reverse)
    (fun _ => .refl _) (fun _ => .refl _))

/-- A parser that returns two packages of one name and version, in the given order. -/
def C84_parser (l : List PackageDetails) : Env := { C84_env with parse := fun _ _ => (l, false) }

theorem C84_order_counterexample : ¬ C84_order_full := by
  intro h
  have := h Sorter.insertion (C84_parser [samplePkg g!"a" g!"npm", samplePkg g!"a" g!"Go"])
    (C84_parser [samplePkg g!"a" g!"Go", samplePkg g!"a" g!"npm"]) C84_flags
    ⟨rfl, rfl, rfl, rfl, rfl, rfl, fun _ => .refl _, fun _ => .refl _, fun _ _ _ => ⟨.swap _ _ _, rfl, rfl⟩, fun _ _ _ _ => ⟨rfl, rfl⟩⟩
  have := congrArg (fun e : Ended => e.result.events) this
  revert this
  decide +kernel

/-! ### Non-vacuity -/

/-- A file with two packages, one of them twice. -/
def C84_plain : Str :=
  g!"{\"packages\":{\"node_modules/a\":{\"version\":\"1\"},\"node_modules/b/node_modules/a\":{\"version\":\"1\"},\"node_modules/b\":{\"version\":\"1\"}}}"

/-- The hypotheses of `C84_partial` hold for this file, and the order of iteration matters to the parser. -/
example : SameWorld Sorter.insertion (T := PanicSorter.insertion) (fun _ _ => true) (fun _ _ => sampleServer) (C84_world C84_plain id)
      (C84_world C84_plain List.reverse) ∧
    KeysOk (C84_world C84_plain id).parsers g!"package-lock.json" g!"package-lock.json" ∧
    (∀ r, parseFile (C84_world C84_plain id).parsers g!"package-lock.json" g!"package-lock.json" = some r → NoTies r.1) ∧
    parseFile (C84_world C84_plain id).parsers g!"package-lock.json" g!"package-lock.json" =
      some ([npm g!"a" g!"1" [], npm g!"b" g!"1" []], false) ∧
    parseFile (C84_world C84_plain List.reverse).parsers g!"package-lock.json" g!"package-lock.json" =
      some ([npm g!"b" g!"1" [], npm g!"a" g!"1" []], false) ∧
    (runP Sorter.insertion (C84_env.inWorld Sorter.insertion (C84_world C84_plain id)) { C84_flags with listPackages := false }).crashed = false := by
  have h : parseFile (C84_world C84_plain id).parsers g!"package-lock.json" g!"package-lock.json" =
      some ([npm g!"a" g!"1" [], npm g!"b" g!"1" []], false) := by decide +kernel
  have h' : parseFile (C84_world C84_plain List.reverse).parsers g!"package-lock.json" g!"package-lock.json" =
      some ([npm g!"b" g!"1" [], npm g!"a" g!"1" []], false) := by decide +kernel
  have hk := npmKeysOk_of C84_plain (by decide +kernel)
  refine ⟨C84_world_same _ _ isOrder_reverse, C84_world_keys _ _ hk, ?_, h, h', by decide +kernel⟩
  intro r hr
  rw [h] at hr
  cases hr
  decide

end Osv
