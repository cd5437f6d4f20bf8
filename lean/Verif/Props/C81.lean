import Verif.Model.WorldApi
import Verif.Props.C15
import Verif.Props.C66
import Verif.Spec.Server
/-!
# C81 What an API server lists reaches the report

C66 is about local databases. This is about those of type `api`: batching, the goroutines, merging the details and the report.
-/
namespace Osv
open Spec World

/-- What is returned for package number `k` of a check that succeeds: one record per listed ID, in the order of the server, and each
is what the server said about an ID or just the ID. If the server knows the ID, it is what the server said. -/
theorem C81_check (S : Sorter) (A : ApiEnv) (size : Nat) (pkgs : List PackageDetails) (out : List (List OSV))
    (h : APICheck S A size pkgs (.ok out)) (k : Nat) (hk : k < pkgs.length) :
    ∃ ids vs, ServerLists A size pkgs k ids ∧ out[k]? = some vs ∧ vs.map (·.id) = ids ∧
      ∀ v ∈ vs, ((∃ id, ServerDescribes A id v) ∨ v = { id := v.id }) ∧
        (v.id ≠ [] → (∀ n, ∃ body, A.get n v.id = .response 200 (some body) ∧ (A.decode body).id = v.id) →
          ∃ id, ServerDescribes A id v) := by
  obtain ⟨-, hal⟩ := C14_aligned S A size pkgs out h
  obtain ⟨batches, lists, ids, hb, hc, -, hi, ho⟩ := hal k hk
  have hblock : batches.getD (k / size) [] = (pkgs.drop (k / size * size)).take size := by
    rw [List.getD_eq_getElem?_getD, C13_block pkgs size batches hb k hk]; rfl
  obtain ⟨req, -, hreq, hans⟩ := C15_answered S A size pkgs out h
  cases hvs : out[k]? with
  | none => rw [hvs] at ho; cases ho
  | some vs =>
    rw [hvs] at ho
    have hids : vs.map (·.id) = ids := by simpa using ho
    obtain ⟨body, hp, hps, hl⟩ := (C14_batch_ok_iff _ _ _ _).1 hc
    rw [hblock] at hp hl
    refine ⟨ids, vs, ⟨body, lists, hp, hps, hl, hi⟩, rfl, hids, ?_⟩
    intro v hv
    have hmem := List.mem_of_getElem? hvs
    obtain ⟨h1, h2⟩ := hans vs hmem v hv
    refine ⟨?_, ?_⟩
    · rcases h1 with ⟨n, hn, body, hg, e⟩ | e
      · exact .inl ⟨_, n, body, hg, e⟩
      · exact .inr e
    · intro hne hknown
      obtain ⟨n, hn, e⟩ := List.getElem_of_mem ((hreq v.id).2 ⟨vs, hmem, v, hv, rfl⟩)
      obtain ⟨body, hg, hid⟩ := hknown n
      obtain ⟨m, hm, body', hg', e'⟩ := h2 hne ⟨A.decode body, ⟨n, hn, body, by rw [e]; exact hg, rfl⟩, hid⟩
      exact ⟨_, m, body', hg', e'⟩

theorem api_type (c d : DBConfig) (hc : c.type = g!"api") (hd : d.type = g!"zip" ∨ d.type = g!"api" ∨ d.type = g!"dir")
    (h : d.identifier = c.identifier) : d.type = g!"api" := by
  rw [identifier_eq, identifier_eq] at h
  have hdt : '#' ∉ d.type := by rcases hd with h | h | h <;> rw [h] <;> decide
  have hct : '#' ∉ c.type := by rw [hc]; decide
  rw [← hc]
  exact (append_hash_inj _ _ _ _ hdt hct (.inr ⟨_, rfl⟩) (.inr ⟨_, rfl⟩) h).1

/-- API databases do not depend on the packages, so they are used for all lockfiles that share a config. -/
theorem api_always (f : Flags) (own : List DBConfig) (packages : List PackageDetails) (c : DBConfig) (hct : c.type = g!"api")
    (h : Required f own packages c) :
    f.noConfig = false ∨ f.noConfigDatabases = false ∨ (f.useAPI = true ∧ c = apiDBConfig) := by
  rcases h with ⟨h, -⟩ | h | ⟨-, p, -, -, rfl⟩
  · exact .inr (.inl h)
  · exact .inr (.inr h)
  · exact absurd hct (show g!"zip" ≠ g!"api" by decide)

/-- An API database that answers a check. -/
theorem api_answer (S : Sorter) (W : World) (A : DBConfig → Nat → ApiEnv) (hA : W.FollowsAPI S A) (d : DBConfig) (offline : Bool)
    (size : Int) (names : List Str) (db : DB) (h : (worldLoad S W d offline size names).1 = some db) (ht : d.type = g!"api") (n : Nat)
    (pkgs : List PackageDetails) (answer : List (List OSV)) (ha : db.answer n pkgs = some answer) :
    1 ≤ size ∧ APICheck S (A d n) size.toNat pkgs (.ok answer) := by
  obtain ⟨hs, hcheck⟩ := worldLoad_api S W d offline size names db h ht
  refine ⟨hs, ?_⟩
  obtain ⟨res, hr, he⟩ := hA d size n pkgs hs
  unfold DB.answer at ha
  rw [hcheck, he] at ha
  cases res with
  | error e => cases ha
  | ok out =>
    have : out = answer := by simpa [Except.mapError] using ha
    rw [← this]
    exact hr

/-- If a run ends with exit code 0, the server has answered for each package of a lockfile that must be checked with an API database,
and each vulnerability it listed is ignored, itself or as another one with which it shares an ID or alias. -/
theorem C81_exit_zero (S : Sorter) (env : Env) (W : World) (A : DBConfig → Nat → ApiEnv) (hA : W.FollowsAPI S A) (f : Flags)
    (hiter : ∀ l, (env.iter l).Perm l) (hv : f.printVersion = false) (hle : f.listEcosystems = false) (hl : f.listPackages = false)
    (h0 : (run S (env.inWorld S W) f).exit = 0) (i : Nat)
    (x : FileEntry) (hx : (readOf S (env.inWorld S W) f).files[i]? = some x) (c : DBConfig) (hct : c.type = g!"api")
    (hreq : Required f ((readOf S (env.inWorld S W) f).cells.getD x.config {}).databases x.lockf.packages c) :
    1 ≤ f.batchSize ∧ ∃ d : DBConfig, d.identifier = c.identifier ∧ d.type = g!"api" ∧ ∀ k, k < x.lockf.packages.length →
      ∃ ids, ServerLists (A d i) f.batchSize.toNat x.lockf.packages k ids ∧
        ∀ id ∈ ids, ∃ v, v.id = id ∧ ((∃ id', ServerDescribes (A d i) id' v) ∨ v = { id := id }) ∧
          ∃ o, Related o v ∧ Excused env f x.lockf.filePath o.id := by
  obtain ⟨z1, z2, z3, z4, z5, z6⟩ := C22_exit_zero_partial S (env.inWorld S W) f hv hle h0
  obtain ⟨p, hp⟩ := started_go S (env.inWorld S W) f (exit_zero_started S (env.inWorld S W) f hv hle h0)
  have hxm := List.mem_of_getElem? hx
  have he := z4 x hxm
  obtain ⟨d, hdm, hde, hmine⟩ := used S (env.inWorld S W) f (inWorld_keeps env S W) hiter hl p hp x hxm he c
    (api_always f _ _ c hct hreq) hreq
  rcases hdb : ((env.inWorld S W).load d f.offline f.batchSize
    (allPackageNames (env.inWorld S W) (readOf S (env.inWorld S W) f).files)).1 with _ | db
  · exact absurd hdb (z5 hl d hdm)
  have hmine := hmine db hdb
  obtain ⟨answer, hans⟩ := answered S (env.inWorld S W) f hl p hp z1 i x hx db hmine
  obtain ⟨rep, hrepm, -, -, hcov⟩ := covered S (env.inWorld S W) f hl p hp i x hx he db hmine answer hans
  have hdt := api_type c d hct (worldLoad_type S W d f.offline f.batchSize _ db hdb) hde
  obtain ⟨hs, hcheck⟩ := api_answer S W A hA d f.offline f.batchSize _ db hdb hdt i x.lockf.packages answer hans
  refine ⟨hs, d, hde, hdt, ?_⟩
  intro k hk
  obtain ⟨ids, vs, hlist, hvs, hmap, hall⟩ := C81_check S (A d i) _ _ answer hcheck k hk
  refine ⟨ids, hlist, ?_⟩
  intro id hid
  rw [← hmap] at hid
  obtain ⟨v, hvm, rfl⟩ := List.mem_map.1 hid
  refine ⟨v, rfl, (hall v hvm).1, ?_⟩
  obtain ⟨q, hq, o, hrel, hor⟩ := hcov k vs v hvs hvm hk
  refine ⟨o, hrel, ?_⟩
  rcases hor with hin | hig
  · exact absurd ⟨q, List.mem_of_getElem? hq, o, hin⟩ (z2 _ hrepm)
  · exact (excused_inWorld env S W f _ _).1 ((mem_ignores S (env.inWorld S W) f hl p hp x hxm he _).1 hig.2)

/-- With `--use-api` this holds for every lockfile and the server at `https://api.osv.dev/v1`. -/
theorem C81_use_api (S : Sorter) (env : Env) (W : World) (A : DBConfig → Nat → ApiEnv) (hA : W.FollowsAPI S A) (f : Flags)
    (hiter : ∀ l, (env.iter l).Perm l) (hv : f.printVersion = false) (hle : f.listEcosystems = false) (hl : f.listPackages = false)
    (hu : f.useAPI = true) (h0 : (run S (env.inWorld S W) f).exit = 0)
    (i : Nat) (x : FileEntry) (hx : (readOf S (env.inWorld S W) f).files[i]? = some x) :
    ∃ d : DBConfig, d.type = g!"api" ∧ d.url = g!"https://api.osv.dev/v1" ∧ ∀ k, k < x.lockf.packages.length →
      ∃ ids, ServerLists (A d i) f.batchSize.toNat x.lockf.packages k ids ∧
        ∀ id ∈ ids, ∃ v, v.id = id ∧ ((∃ id', ServerDescribes (A d i) id' v) ∨ v = { id := id }) ∧
          ∃ o, Related o v ∧ Excused env f x.lockf.filePath o.id := by
  obtain ⟨-, d, hde, hdt, h⟩ := C81_exit_zero S env W A hA f hiter hv hle hl h0 i x hx apiDBConfig rfl (.inr (.inl ⟨hu, rfl⟩))
  refine ⟨d, hdt, ?_, h⟩
  exact (identifier_plain apiDBConfig d rfl (by decide) (by decide) (by rw [hdt]; decide) hde).2.1

/-- For any exit code: if the database is loaded and answers, everything that the server listed for a package is in the report of the
lockfile, at the package. -/
theorem C81_complete (S : Sorter) (env : Env) (W : World) (A : DBConfig → Nat → ApiEnv) (hA : W.FollowsAPI S A) (f : Flags)
    (hiter : ∀ l, (env.iter l).Perm l) (hl : f.listPackages = false)
    (hs : Started f (run S (env.inWorld S W) f).events) (i : Nat)
    (x : FileEntry) (hx : (readOf S (env.inWorld S W) f).files[i]? = some x) (he : x.err = false) (c : DBConfig)
    (hct : c.type = g!"api")
    (hreq : Required f ((readOf S (env.inWorld S W) f).cells.getD x.config {}).databases x.lockf.packages c) :
    ∃ d ∈ neededConfigs (env.inWorld S W) f (readOf S (env.inWorld S W) f), d.identifier = c.identifier ∧
      ∀ db answer, ((env.inWorld S W).load d f.offline f.batchSize
          (allPackageNames (env.inWorld S W) (readOf S (env.inWorld S W) f).files)).1 = some db →
        db.check i x.lockf.packages = (.ok answer, false) ∨ db.check i x.lockf.packages = (.ok answer, true) →
        ∃ rep, .report rep ∈ shown (run S (env.inWorld S W) f).events ∧ rep.lockfile = x.lockf ∧
          rep.packages.map (·.pkg) = x.lockf.packages ∧ ∀ k, k < x.lockf.packages.length → ∃ q ids, rep.packages[k]? = some q ∧
            ServerLists (A d i) f.batchSize.toNat x.lockf.packages k ids ∧
            ∀ id ∈ ids, ∃ v, v.id = id ∧ ((∃ id', ServerDescribes (A d i) id' v) ∨ v = { id := id }) ∧
              ∃ o ∈ q.vulnerabilities ++ q.ignored, Related o v := by
  obtain ⟨p, hp⟩ := started_go S (env.inWorld S W) f hs
  obtain ⟨d, hdm, hde, hmine⟩ :=
    used S (env.inWorld S W) f (inWorld_keeps env S W) hiter hl p hp x (List.mem_of_getElem? hx) he c
      (api_always f _ _ c hct hreq) hreq
  refine ⟨d, hdm, hde, ?_⟩
  intro db answer hdb hok
  have hmine := hmine db hdb
  have hans : db.answer i x.lockf.packages = some answer := by
    unfold DB.answer
    rcases hok with h | h <;> rw [h]
  obtain ⟨rep, hrepm, hrl, hpk, hcov⟩ := covered S (env.inWorld S W) f hl p hp i x hx he db hmine answer hans
  have hdt := api_type c d hct (worldLoad_type S W d f.offline f.batchSize _ db hdb) hde
  obtain ⟨hs, hcheck⟩ := api_answer S W A hA d f.offline f.batchSize _ db hdb hdt i x.lockf.packages answer hans
  refine ⟨rep, hrepm, hrl, hpk, ?_⟩
  intro k hk
  obtain ⟨ids, vs, hlist, hvs, hmap, hall⟩ := C81_check S (A d i) _ _ answer hcheck k hk
  have hlen : rep.packages.length = x.lockf.packages.length := by rw [← hpk, List.length_map]
  refine ⟨rep.packages[k], ids, List.getElem?_eq_getElem (by omega), hlist, ?_⟩
  intro id hid
  rw [← hmap] at hid
  obtain ⟨v, hvm, rfl⟩ := List.mem_map.1 hid
  refine ⟨v, rfl, (hall v hvm).1, ?_⟩
  obtain ⟨q, hq, o, hrel, hor⟩ := hcov k vs v hvs hvm hk
  rw [List.getElem?_eq_getElem (by omega)] at hq
  cases hq
  refine ⟨o, ?_, hrel⟩
  rcases hor with h | h
  · exact List.mem_append_left _ h
  · exact List.mem_append_right _ h.1

/-- The converse: whatever is reported for a package comes from a database that was loaded, and if that is an API database then the
server listed it for this package. With configs enabled the database is required for the lockfile. -/
theorem C81_sound (S : Sorter) (env : Env) (W : World) (A : DBConfig → Nat → ApiEnv) (hA : W.FollowsAPI S A) (f : Flags)
    (hiter : ∀ l, (env.iter l).Perm l) (hl : f.listPackages = false)
    (hs : Started f (run S (env.inWorld S W) f).events) (rep : Report)
    (hrep : .report rep ∈ shown (run S (env.inWorld S W) f).events) (k : Nat) (q : PkgReport) (hq : rep.packages[k]? = some q)
    (v : OSV) (hv : v ∈ q.vulnerabilities ++ q.ignored) :
    ∃ i x, (readOf S (env.inWorld S W) f).files[i]? = some x ∧ x.lockf = rep.lockfile ∧ x.lockf.packages[k]? = some q.pkg ∧
    ∃ d ∈ neededConfigs (env.inWorld S W) f (readOf S (env.inWorld S W) f),
      (f.noConfig = false → ∃ c : DBConfig, d.identifier = c.identifier ∧
        Required f ((readOf S (env.inWorld S W) f).cells.getD x.config {}).databases x.lockf.packages c) ∧
      (d.type = g!"api" → ∃ ids, ServerLists (A d i) f.batchSize.toNat x.lockf.packages k ids ∧ v.id ∈ ids ∧
        ((∃ id, ServerDescribes (A d i) id v) ∨ v = { id := v.id })) := by
  obtain ⟨p, hp⟩ := started_go S (env.inWorld S W) f hs
  obtain ⟨h1, h2, h3⟩ := prep_read S (env.inWorld S W) f p hp
  rw [run_shown, (runBody_go S (env.inWorld S W) f p hp).1] at hrep
  obtain ⟨i, x, hxi, he, rfl⟩ := loopResults_inv _ _ _ _ _ _ hrep
  have hxm := List.mem_of_getElem? hxi
  rw [Nat.zero_add] at hq
  simp only [reportOf, List.getElem?_mapIdx] at hq
  obtain ⟨pkg, hpk, rfl⟩ := Option.map_eq_some_iff.1 hq
  refine ⟨i, x, h1 ▸ hxi, rfl, by rw [hpk, transpose_eq], ?_⟩
  have hret : v ∈ returned k ((forConfigs p.2.1 (p.1.cells.getD x.config {}).databases).filterMap
      fun db => db.answer i x.lockf.packages) := by
    rw [transpose_eq] at hv
    dsimp only at hv
    rw [List.mem_append, List.mem_filter, List.mem_filter] at hv
    refine (uniqueVulns_spec _).1.mem ?_
    rcases hv with h | h <;> exact h.1
  obtain ⟨answer, hans, hva⟩ := List.mem_flatMap.1 hret
  obtain ⟨db, hdb, hdba⟩ := List.mem_filterMap.1 hans
  unfold forConfigs at hdb
  obtain ⟨db', hdb', hf⟩ := List.mem_flatMap.1 hdb
  obtain ⟨e, hem, hee⟩ := List.mem_filterMap.1 hf
  have heq : e.identifier = db'.identifier ∧ db' = db := by
    split at hee
    · rename_i hi; exact ⟨hi, by injection hee⟩
    · cases hee
  obtain ⟨hid, rfl⟩ := heq
  rw [h3 hl] at hdb'
  obtain ⟨d, hdm, hdl⟩ := List.mem_filterMap.1 hdb'
  have hdi := inWorld_keeps env S W d _ _ _ _ hdl
  refine ⟨d, hdm, ?_, ?_⟩
  · intro hn
    obtain ⟨req, hreq1, hreq2⟩ := C32_exact_partial S (env.inWorld S W) f hiter hl hn p hp x hxm he
    rw [hreq1] at hem
    exact ⟨e, by rw [hid, hdi], (hreq2 e).1 ((firsts_sublist _).mem hem)⟩
  intro hdt
  obtain ⟨-, hcheck⟩ := api_answer S W A hA d f.offline f.batchSize _ db' hdl hdt i x.lockf.packages answer hdba
  obtain ⟨ids, vs, hlist, hvs, hmap, hall⟩ :=
    C81_check S (A d i) _ _ answer hcheck k (List.getElem?_eq_some_iff.1 hpk).1
  rw [List.getD_eq_getElem?_getD, hvs] at hva
  exact ⟨ids, hlist, hmap ▸ List.mem_map_of_mem hva, (hall v hva).1⟩

/-! ### Non-vacuity -/

/-- For every network there is a world in which API databases are checked over it. -/
theorem follows_possible (S : Sorter) (W : World) (A : DBConfig → Nat → ApiEnv) :
    ∃ api, { W with api := api : World }.FollowsAPI S A := by
  have h : ∀ (c : DBConfig) (size : Int) (n : Nat) (pkgs : List PackageDetails), ∃ res : Except ApiErr (List (List OSV)),
      1 ≤ size → APICheck S (A c n) size.toNat pkgs res := by
    intro c size n pkgs
    by_cases hs : 1 ≤ size
    · obtain ⟨res, h⟩ := C14_terminates S (A c n) size.toNat (by omega) pkgs
      exact ⟨res, fun _ => h⟩
    · exact ⟨.ok [], fun h => absurd h hs⟩
  refine ⟨fun c size n pkgs => ((Classical.choose (h c size n pkgs)).mapError fun _ => (), false), ?_⟩
  intro c size n pkgs hs
  exact ⟨_, Classical.choose_spec (h c size n pkgs) hs, rfl⟩

/-- A server that lists one ID for every package and knows nothing about it. -/
def sampleServer : ApiEnv where
  post _ queries := .response 200 (some (queries.map fun _ => 'q'))
  get _ _ := .response 404 none
  parse body := some (body.map fun _ => [g!"X-1"])
  decode _ := default

def sampleApiWorld : World :=
  { sampleReqWorld with
    load := { sampleReqWorld.load with parseURI := some }
    api := fun _ _ _ pkgs => (.ok (pkgs.map fun _ => [{ id := g!"X-1" }]), false) }

theorem sampleApiWorld_follows (S : Sorter) : sampleApiWorld.FollowsAPI S fun _ _ => sampleServer := by
  intro c size n pkgs hs
  obtain ⟨res, h⟩ := C14_terminates S sampleServer size.toNat (by omega) pkgs
  obtain ⟨batches, hb⟩ := C13_total pkgs size.toNat (by omega)
  obtain ⟨out, rfl⟩ := C14_no_failure_succeeds S sampleServer _ pkgs res h batches hb (fun i hi =>
    ⟨(batches.getD i []).map fun _ => [g!"X-1"], by simp [checkBatch, sampleServer]⟩)
  refine ⟨_, h, ?_⟩
  have hout : out = pkgs.map fun _ => [{ id := g!"X-1" }] := by
    refine List.ext_getElem? fun k => ?_
    have hlen := (C14_aligned S sampleServer _ pkgs out h).1
    by_cases hk : k < pkgs.length
    · obtain ⟨ids, vs, ⟨body, lists, h1, h2, h3, h4⟩, hvs, hmap, hall⟩ := C81_check S sampleServer _ pkgs out h k hk
      have hids : ids = [g!"X-1"] := by
        cases h2
        rw [List.getElem?_map] at h4
        obtain ⟨_, -, h⟩ := Option.map_eq_some_iff.1 h4
        exact h.symm
      rw [hids] at hmap
      rw [hvs, List.getElem?_map, List.getElem?_eq_getElem hk]
      have : ∃ v, vs = [v] ∧ v.id = g!"X-1" := by
        cases vs with
        | nil => cases hmap
        | cons v vs =>
          rw [List.map_cons] at hmap
          injection hmap with ha hb
          exact ⟨v, by rw [List.map_eq_nil_iff.1 hb], ha⟩
      obtain ⟨v, rfl, hv⟩ := this
      rcases (hall v (List.mem_singleton.2 rfl)).1 with ⟨id, n, body, hg, -⟩ | hb
      · cases hg
      · rw [hb, hv]; rfl
    · rw [List.getElem?_eq_none (by omega), List.getElem?_eq_none (by simpa using hk)]
  rw [hout]
  rfl

def sampleApiFlags : Flags := { sampleReqFlags with useAPI := true, useDatabases := false }

/-- The hypotheses of `C81_use_api` hold, and without the ignore the exit code is 1. -/
example : (run Sorter.insertion (sampleReqEnv.inWorld Sorter.insertion sampleApiWorld) sampleApiFlags).exit = 0 ∧
    (readOf Sorter.insertion (sampleReqEnv.inWorld Sorter.insertion sampleApiWorld) sampleApiFlags).files.length = 1 ∧
    (run Sorter.insertion (sampleReqEnv.inWorld Sorter.insertion sampleApiWorld)
      { sampleApiFlags with globalIgnores := [] }).exit = 1 := by decide +kernel

end Osv
