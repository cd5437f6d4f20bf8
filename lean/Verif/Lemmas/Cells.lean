import Verif.Lemmas.RunFun
import Verif.Lemmas.Path
/-! # Configs in memory and on disk -/
namespace Osv
open Spec

/-- A config in memory has the ignores of its file. -/
def CellOK (file : Str → ConfigFile) (c : Config) : Prop :=
  c.filePath ≠ [] → Path.clean c.filePath = c.filePath ∧ ∃ raw, file c.filePath = .ok raw ∧ c.ignore = raw.ignore

theorem newConfig_fields (v : Str → Bool) (ds : List RawDB) (a : Config × List RawDBErr) :
    (ds.foldl (newConfigStep v) a).1.filePath = a.1.filePath ∧ (ds.foldl (newConfigStep v) a).1.ignore = a.1.ignore := by
  induction ds generalizing a with
  | nil => exact ⟨rfl, rfl⟩
  | cons d ds ih =>
    rw [List.foldl_cons, (ih _).1, (ih _).2]
    unfold newConfigStep
    cases d.toConfig v <;> exact ⟨rfl, rfl⟩

theorem loadConfig_cellOK (v : Str → Bool) (file : Str → ConfigFile) (p : Str) (c : Config) (d : List RawDBErr)
    (h : loadConfig v file p = .ok (c, d)) : CellOK file c := by
  unfold loadConfig loadRaw at h
  dsimp only at h
  cases hf : file (Path.clean p) with
  | ok raw =>
    rw [hf] at h
    dsimp only at h
    have hc : newConfig v (Path.clean p) raw = (c, d) := by injection h
    obtain ⟨h1, h2⟩ := newConfig_fields v raw.databases (⟨Path.clean p, raw.ignore, []⟩, [])
    unfold newConfig at hc
    rw [hc] at h1 h2
    dsimp only at h1 h2
    intro _
    rw [h1, h2]
    exact ⟨Path.clean_idem p, raw, hf, rfl⟩
  | _ => rw [hf] at h; dsimp only at h; cases h

theorem findConfig_cellOK (v : Str → Bool) (file : Str → ConfigFile) (p : Str) (c : Config) (d : List RawDBErr)
    (h : findConfig v file p = .ok (c, d)) : CellOK file c := by
  unfold findConfig at h
  split at h
  · rename_i c' h1
    cases h
    exact loadConfig_cellOK _ _ _ _ _ h1
  · split at h
    · rename_i c' h1
      cases h
      exact loadConfig_cellOK _ _ _ _ _ h1
    · cases h
      intro hn
      exact absurd rfl hn
    · cases h
  · cases h

theorem cellOK_getD {file : Str → ConfigFile} {cells : List Config} (h : ∀ c ∈ cells, CellOK file c) (k : Nat) :
    CellOK file (cells.getD k {}) := by
  rw [List.getD_eq_getElem?_getD]
  cases hk : cells[k]? with
  | none => intro hn; exact absurd rfl hn
  | some c => exact h c (List.mem_of_getElem? hk)

theorem readStep_cellOK (S : Sorter) (env : Env) (args : List Str) (cl : Bool) (s : ReadState) (p : Str)
    (h : ∀ c ∈ s.cells, CellOK env.config c) : ∀ c ∈ (readStep S env args cl s p).cells, CellOK env.config c := by
  unfold readStep
  dsimp only
  split
  · split
    · exact h
    · rename_i con d hf
      intro c hc
      rcases List.mem_append.1 hc with hc | hc
      · exact h c hc
      · rw [List.mem_singleton.1 hc]; exact findConfig_cellOK _ _ _ _ _ hf
  · split
    · intro c hc
      rcases List.mem_append.1 hc with hc | hc
      · exact h c hc
      · rw [List.mem_singleton.1 hc]; exact cellOK_getD h _
    · exact h

theorem readAll_cellOK (S : Sorter) (env : Env) (r : RState) (paths args : List Str) (cl : Bool) (c : Config)
    (hc : CellOK env.config c) :
    ∀ c' ∈ (readAllLockfiles S env r paths args cl c).cells, CellOK env.config c' := by
  unfold readAllLockfiles
  have h0 : ∀ c' ∈ (⟨r, [c], 0, []⟩ : ReadState).cells, CellOK env.config c' := by
    intro c' h; rw [List.mem_singleton.1 h]; exact hc
  generalize (⟨r, [c], 0, []⟩ : ReadState) = s at h0
  induction paths generalizing s with
  | nil => exact h0
  | cons p ps ih => exact ih _ (readStep_cellOK S env args cl s p h0)

theorem adjust_cellOK (env : Env) (f : Flags) (file : Str → ConfigFile) (files : List FileEntry) (cells : List Config)
    (h : ∀ c ∈ cells, CellOK file c) : ∀ c ∈ adjustExtraDatabases env f files cells, CellOK file c := by
  unfold adjustExtraDatabases
  induction files generalizing cells with
  | nil => exact h
  | cons x xs ih =>
    rw [List.foldl_cons]
    apply ih
    unfold adjustStep
    split
    · exact h
    · intro c hc
      rcases List.mem_or_eq_of_mem_set hc with hc | rfl
      · exact h c hc
      · exact cellOK_getD h x.config

theorem prep_cellOK (S : Sorter) (env : Env) (f : Flags) (p : LoopState × List DB × List FileEntry)
    (hp : runPrep S env f = .inr p) : ∀ c ∈ p.1.cells, CellOK env.config c := by
  unfold runPrep at hp
  dsimp only at hp
  generalize findAllLockfiles env { outputAsJSON := f.json } f.args f.parseAs = found at *
  split at hp
  · cases hp
  split at hp
  · cases hp
  split at hp
  · cases hp
  split at hp
  · cases hp
  rcases hst : startConfig env f found.1 with ⟨r, o⟩
  rw [hst] at hp
  cases o with
  | none => cases hp
  | some cc =>
    obtain ⟨c, cl⟩ := cc
    dsimp only at hp
    cases hp
    have hc : CellOK env.config c := by
      unfold startConfig at hst
      split at hst
      · cases hst; intro hn; exact absurd rfl hn
      · split at hst
        · split at hst
          · cases hst
          · rename_i c' d hl
            cases hst
            exact loadConfig_cellOK _ _ _ _ _ hl
        · cases hst; intro hn; exact absurd rfl hn
    exact adjust_cellOK env f env.config _ _ (readAll_cellOK S env r _ _ cl c hc)

end Osv
