import Verif.Lemmas.Databases
import Verif.Spec.RunSamples
/-! # C30 Databases are de-duplicated by identifier -/
namespace Osv
open Spec

/-- The databases to load are the configured ones without later duplicates of an identifier, in order. -/
theorem C30_unique (configs : List (List DBConfig)) : uniqueDBConfigs configs = firsts configs.flatten :=
  uniqueDBConfigs_eq configs

/-- What `firsts` gives: a sublist of the input with distinct identifiers and all identifiers of the input, in which
each element is the first with its identifier. -/
theorem C30_firsts (cs : List DBConfig) :
    (firsts cs).Sublist cs ∧ ((firsts cs).map (·.identifier)).Nodup ∧
    (∀ c ∈ cs, ∃ d ∈ firsts cs, d.identifier = c.identifier) ∧
    (∀ d ∈ firsts cs, ∃ pre post, cs = pre ++ d :: post ∧ ∀ c ∈ pre, c.identifier ≠ d.identifier) := by
  refine ⟨firsts_sublist cs, firsts_nodup cs, firsts_mem cs, ?_⟩
  induction cs with
  | nil => intro d h; cases h
  | cons c cs ih =>
    intro d hd
    rcases List.mem_cons.1 hd with rfl | hd
    · exact ⟨[], cs, rfl, by simp⟩
    · obtain ⟨h1, h2⟩ := List.mem_filter.1 hd
      obtain ⟨pre, post, e, hpre⟩ := ih d h1
      refine ⟨c :: pre, post, by rw [e]; rfl, ?_⟩
      intro x hx
      rcases List.mem_cons.1 hx with rfl | hx
      · exact Ne.symm (of_decide_eq_true h2)
      · exact hpre x hx

/-- In a run that gets to the lockfiles, the databases are the loaded ones of `firsts` of all configs of readable
lockfiles, and each readable lockfile is checked with each of its databases exactly once. -/
theorem C30_run (S : Sorter) (env : Env) (hk : KeepsIdentifier env) (f : Flags) (hl : f.listPackages = false)
    (p : LoopState × List DB × List FileEntry) (hp : runPrep S env f = .inr p) :
    p.2.1 = (firsts ((p.2.2.filter fun x => !x.err).flatMap fun x => (p.1.cells.getD x.config {}).databases)).filterMap
      (fun c => (env.load c f.offline f.batchSize (allPackageNames env p.2.2)).1) ∧
    ∀ x ∈ p.2.2, x.err = false →
      let mine := forConfigs p.2.1 (p.1.cells.getD x.config {}).databases
      (mine.map (·.identifier)).Nodup ∧
      mine = p.2.1.filter fun db => (p.1.cells.getD x.config {}).databases.any fun c => decide (c.identifier = db.identifier) := by
  obtain ⟨h1, h2, h3⟩ := prep_read S env f p hp
  have hinv := readInv_readOf S env f p hp
  have hdbs : p.2.1 = (firsts ((p.2.2.filter fun x => !x.err).flatMap fun x => (p.1.cells.getD x.config {}).databases)).filterMap
      (fun c => (env.load c f.offline f.batchSize (allPackageNames env p.2.2)).1) := by
    rw [h3 hl, h1, h2]
    unfold neededConfigs
    rw [uniqueDBConfigs_eq, List.flatMap_def]
    unfold getConfigs
    rw [List.map_map]
    rfl
  refine ⟨hdbs, fun x hx he => ?_⟩
  have hnd : ((p.1.cells.getD x.config {}).databases.map (·.identifier)).Nodup := by
    rw [h2, ← h1]
    apply adjust_nodup
    right
    rw [h1] at hx
    exact ⟨hinv.range x hx, x, by rw [h1]; exact hx, he, rfl⟩
  dsimp only
  rw [forConfigs_filter _ _ hnd]
  refine ⟨?_, rfl⟩
  refine (List.filter_sublist.map _).nodup ?_
  rw [hdbs]
  exact loaded_nodup env hk f _ _ (firsts_nodup _)

/-! ### Non-vacuity -/

example : KeepsIdentifier sampleEnv := by
  intro c off n names db h
  unfold sampleEnv at h
  dsimp only at h
  split at h <;> (cases h; rfl)

/-- The second config has the identifier of the first under another name. -/
example : uniqueDBConfigs [[⟨g!"a", g!"zip", g!"u", []⟩, apiDBConfig], [⟨g!"b", g!"zip", g!"u", []⟩, ⟨g!"c", g!"zip", g!"u", g!"w"⟩]] =
    [⟨g!"a", g!"zip", g!"u", []⟩, apiDBConfig, ⟨g!"c", g!"zip", g!"u", g!"w"⟩] := by decide

end Osv
