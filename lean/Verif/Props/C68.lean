import Verif.Lemmas.EndToEnd
import Verif.Lemmas.OwnConfig
/-! # C68 Ignores come from the config that applies to the lockfile -/
namespace Osv
open Spec

theorem loopResults_inv (f : Flags) (dbs : List DB) (cells : List Config) (j : Nat) (files : List FileEntry) (rep : Report)
    (h : .report rep ∈ loopResults f dbs cells j files) :
    ∃ i x, files[i]? = some x ∧ x.err = false ∧ rep = reportOf f dbs (cells.getD x.config {}) (j + i) x.lockf := by
  induction files generalizing j with
  | nil => cases h
  | cons y ys ih =>
    unfold loopResults at h
    rcases List.mem_append.1 h with h | h
    · unfold resultOf at h
      split at h
      · cases h
      · rename_i he
        split at h
        · simp at h
        · refine ⟨0, y, rfl, by simpa using he, ?_⟩
          simpa using h
    · obtain ⟨i, x, h1, h2, h3⟩ := ih (j + 1) h
      exact ⟨i + 1, x, by simpa using h1, h2, by rw [h3, Nat.add_assoc, Nat.add_comm 1]⟩

/-- In every report of a run, the ignored vulnerabilities are those with an ID that is ignored on the command line or by the config
file that applies to the lockfile; the configs of other lockfiles have no influence. -/
theorem C68_own_ignores (S : Sorter) (env : Env) (f : Flags) (hl : f.listPackages = false) (hs : Started f (run S env f).events)
    (rep : Report) (hr : .report rep ∈ shown (run S env f).events) (q : PkgReport) (hq : q ∈ rep.packages) :
    (∀ v ∈ q.ignored, Excused env f rep.lockfile.filePath v.id) ∧
    (∀ v ∈ q.vulnerabilities, ¬ Excused env f rep.lockfile.filePath v.id) := by
  obtain ⟨p, hp⟩ := started_go S env f hs
  obtain ⟨h1, h2, -⟩ := prep_read S env f p hp
  rw [run_shown, (runBody_go S env f p hp).1] at hr
  obtain ⟨i, x, hx, he, rfl⟩ := loopResults_inv _ _ _ _ _ _ hr
  rw [h1] at hx
  have hm := mem_ignores S env f hl p hp x (List.mem_of_getElem? hx) he
  rw [h2] at hq
  obtain ⟨k, hk, rfl⟩ := List.mem_mapIdx.1 hq
  rw [World.adjust_ignores]
  generalize ignoresFor f ((readOf S env f).cells.getD x.config {}) = ig at hm
  have hsp := C26_split x.lockf.packages[k] ig k
  constructor
  · intro v hv
    exact (hm _).1 (((hsp _ v (List.mem_append_right _ hv)).1).1 hv)
  · intro v hv hex
    exact ((hsp _ v (List.mem_append_left _ hv)).2).1 hv ((hm _).2 hex)

/-- At most one config file applies to a lockfile. -/
theorem C68_unique (env : Env) (f : Flags) (q p p' : Str) (r r' : RawConfig) (h : ConfigFor env f q p r)
    (h' : ConfigFor env f q p' r') : p = p' ∧ r = r' := configFor_unique h h'

/-- The databases that must be used for a lockfile include those of its config file, and none of another config file. -/
theorem C68_own_databases (S : Sorter) (env : Env) (f : Flags) (hl : f.listPackages = false) (hs : Started f (run S env f).events)
    (x : FileEntry) (hx : x ∈ (readOf S env f).files) (he : x.err = false) (c : DBConfig) :
    c ∈ ((readOf S env f).cells.getD x.config {}).databases ↔
      ∃ path raw, ConfigFor env f x.lockf.filePath path raw ∧ ∃ d ∈ raw.databases, d.toConfig env.validURL = .ok c := by
  obtain ⟨p, hp⟩ := started_go S env f hs
  have key : ∀ (ds : List RawDB) (a : Config × List RawDBErr),
      c ∈ (ds.foldl (newConfigStep env.validURL) a).1.databases ↔
        c ∈ a.1.databases ∨ ∃ d ∈ ds, d.toConfig env.validURL = .ok c := by
    intro ds
    induction ds with
    | nil => intro a; simp
    | cons d ds ih =>
      intro a
      rw [List.foldl_cons, ih]
      unfold newConfigStep
      cases hd : d.toConfig env.validURL with
      | error e => simp [hd]
      | ok y =>
        simp only [List.mem_append, List.mem_cons, List.not_mem_nil, or_false, exists_eq_or_imp, hd, Except.ok.injEq]
        rw [or_assoc, eq_comm]
  rcases cell_config S env f hl p hp x hx he with ⟨path, raw, hc, hcell⟩ | ⟨hno, hcell⟩
  · rw [hcell]
    unfold newConfig
    rw [key]
    constructor
    · rintro (h | h)
      · cases h
      · exact ⟨path, raw, hc, h⟩
    · rintro ⟨path', raw', hc', h⟩
      rw [(configFor_unique hc hc').2]; exact .inr h
  · rw [hcell]
    constructor
    · intro h; cases h
    · rintro ⟨path, raw, h, -⟩; exact absurd h (hno path raw)

/-! ### Non-vacuity -/

/-- The config of `d` ignores `A`, for the lockfiles in `d` only. -/
example : ConfigFor sampleEnv (sampleFlags [g!"d", g!"go.mod"]) g!"d/go.mod" g!"d/.osv-detector.yml" { ignore := [g!"A"] } :=
  .yml _ rfl rfl (by decide +kernel)

example : Excused sampleEnv (sampleFlags [g!"d", g!"go.mod"]) g!"d/go.mod" g!"A" :=
  .inr ⟨rfl, _, _, .yml _ rfl rfl (by decide +kernel : sampleEnv.config _ = .ok { ignore := [g!"A"] }), by decide⟩

example : ((shown (run Sorter.insertion sampleEnv (sampleFlags [g!"d", g!"go.mod"])).events).map fun
      | .report r => r.packages.map fun q => (q.vulnerabilities.map (·.id), q.ignored.map (·.id))
      | _ => []) =
    [[([], [g!"A"])], [([g!"C"], [])], [([g!"A"], [])]] := by decide +kernel

end Osv
