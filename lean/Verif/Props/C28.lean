import Verif.Lemmas.Update
import Verif.Spec.RunSamples
/-!
# C28 Updating config ignores converges

`configsUsed` lists the config paths of the lockfiles that could be read (empty if there is no config), in the order
of the results.
-/
namespace Osv
open Spec

/-- When every write succeeds, each used config keeps its content except that its ignores become the strictly sorted
list of all IDs in the results of the lockfiles using it; all other config files are unchanged. -/
theorem C28_written (S : Sorter) (env : Env) (f : Flags) (hu : f.updateConfigIgnores = true)
    (hl : f.listPackages = false) (hup : ∀ p, env.update p = .complete) :
    let x := run S env f
    let uses := (configsUsed S env f).zip (shown x.events)
    (configsUsed S env f).length = (shown x.events).length ∧
    ∀ q, (q ≠ [] ∧ q ∈ configsUsed S env f → ∃ raw ids, env.config q = .ok raw ∧
        x.config q = .ok { raw with ignore := ids } ∧ ids.Pairwise (fun a b => Str.lt a b = true) ∧
        ∀ id, id ∈ ids ↔ ∃ r, (q, r) ∈ uses ∧ id ∈ idsOf r) ∧
      (q = [] ∨ q ∉ configsUsed S env f → x.config q = env.config q) := by
  intro x uses
  simp only [x, uses]
  rw [run_shown]
  have hx : (run S env f).config = (runBody S env f).config := rfl
  rw [hx]
  cases hp : runPrep S env f with
  | inl a =>
    have hc : configsUsed S env f = [] := by unfold configsUsed; rw [hp]
    have hb := runBody_prep S env f
    rw [hp] at hb
    dsimp only at hb
    rw [hc, hb]
    exact ⟨by rw [prep_shown S env f a hp]; rfl, fun q => ⟨by simp, fun _ => by rw [prep_config S env f a hp]⟩⟩
  | inr p =>
    have hc : configsUsed S env f = usedPaths p.1.cells p.2.2 := by unfold configsUsed; rw [hp]
    obtain ⟨s1, _⟩ := runBody_go S env f p hp
    have hper := loopPer_eq f hl hu p.2.1 p.1.cells 0 [] p.2.2
    rw [hc, s1]
    refine ⟨used_length _ _ _ _ _, fun q => ?_⟩
    rw [run_config S env f hu hl hup p hp q, hper]
    have hlen := used_length f p.2.1 p.1.cells 0 p.2.2
    have hok := usedPaths_cellOK (prep_cellOK S env f p hp) p.2.2 q
    generalize usedPaths p.1.cells p.2.2 = us at *
    generalize loopResults f p.2.1 p.1.cells 0 p.2.2 = rs at *
    have hany : (us.zip rs).any (fun e => decide (e.1 = q)) = true ↔ q ∈ us := by
      rw [List.any_eq_true]
      constructor
      · rintro ⟨e, he, h⟩
        rw [← of_decide_eq_true h]
        exact (List.of_mem_zip he).1
      · intro h
        rw [← List.map_fst_zip (show us.length ≤ rs.length by omega)] at h
        obtain ⟨e, he, h⟩ := List.mem_map.1 h
        exact ⟨e, he, by simpa using h⟩
    constructor
    · rintro ⟨hq, hqu⟩
      obtain ⟨_, raw, hraw⟩ := hok hqu hq
      rw [addIds_get _ _ _ hq, if_pos (.inl (hany.2 hqu)), hraw]
      refine ⟨raw, _, rfl, rfl, sorted_newIgnores _, fun id => ?_⟩
      rw [mem_newIgnores]
      simp only [SMap.get?, List.lookup_nil, Option.getD_none, List.nil_append, List.mem_flatMap, List.mem_filter,
        decide_eq_true_eq]
      constructor
      · rintro ⟨e, ⟨he, rfl⟩, hid⟩; exact ⟨e.2, he, hid⟩
      · rintro ⟨r, hr, hid⟩; exact ⟨(q, r), ⟨hr, rfl⟩, hid⟩
    · intro h
      by_cases hq : q = []
      · subst hq
        have : ((us.zip rs).foldl addIds []).get? [] = none := by
          unfold SMap.get?
          rw [List.lookup_eq_none_iff]
          intro e he
          have : [] ≠ e.1 := by
            intro h0
            exact addIds_keys (us.zip rs) [] (by simp) (List.mem_map.2 ⟨e, he, h0.symm⟩)
          simp [this]
        rw [this]
      · rcases h with h | h
        · exact absurd h hq
        · rw [addIds_get _ _ _ hq, if_neg]
          rintro (h' | h')
          · exact h (hany.1 h')
          · cases h'

/-- Running again on the same inputs reports no vulnerability for the lockfiles that use a config, and writes the same
config files again. -/
theorem C28_converges (S : Sorter) (env : Env) (f : Flags) (hu : f.updateConfigIgnores = true)
    (hl : f.listPackages = false) (hi : f.noConfigIgnores = false) (hup : ∀ p, env.update p = .complete) :
    let env' := { env with config := (run S env f).config }
    let y := run S env' f
    configsUsed S env' f = configsUsed S env f ∧
    (∀ q r, (q, r) ∈ (configsUsed S env' f).zip (shown y.events) → q ≠ [] → ¬ Vulnerable r) ∧
    y.config = (run S env f).config := by
  intro env' y
  have hwritten := C28_written S env f hu hl hup
  have hx : (run S env f).config = (runBody S env f).config := rfl
  have hy : y.config = (runBody S env' f).config := rfl
  have hcfg : env'.config = (run S env f).config := rfl
  have hup' : ∀ p, env'.update p = .complete := hup
  have hfs : FilesSame env.config (run S env f).config := by
    intro q
    obtain ⟨h1, h2⟩ := hwritten.2 q
    by_cases hq : q ≠ [] ∧ q ∈ configsUsed S env f
    · obtain ⟨raw, ids, e1, e2, _⟩ := h1 hq
      rw [e1, e2]; exact .ok _ _ rfl
    · rw [h2 (by by_cases h0 : q = []
                 · exact .inl h0
                 · exact .inr fun hm => hq ⟨h0, hm⟩)]
      exact .refl _
  have hprep : PrepSame (runPrep S env f) (runPrep S env' f) := prep_same S env _ hfs f f.globalIgnores
  have hshown : shown y.events = (runBody S env' f).r.sum.shown := run_shown S env' f
  have hshown0 : shown (run S env f).events = (runBody S env f).r.sum.shown := run_shown S env f
  rw [hshown, hy]
  dsimp only at hwritten
  rw [hshown0] at hwritten
  have c1 : configsUsed S env f = match runPrep S env f with
    | .inl _ => []
    | .inr p => usedPaths p.1.cells p.2.2 := rfl
  have c2 : configsUsed S env' f = match runPrep S env' f with
    | .inl _ => []
    | .inr p => usedPaths p.1.cells p.2.2 := rfl
  have go1 := runBody_go S env f
  have go2 := runBody_go S env' f
  have b2 := runBody_prep S env' f
  have rc1 := run_config S env f hu hl hup
  have rc2 := run_config S env' f hu hl hup'
  have ok2 := prep_cellOK S env' f
  have pc := prep_config S env' f
  clear_value env' y
  generalize runPrep S env f = P at *
  generalize runPrep S env' f = P' at *
  cases hprep with
  | stop a a' _ _ =>
    dsimp only at c1 c2 b2
    rw [c2, c1, b2, pc a' rfl, hcfg]
    exact ⟨rfl, by simp, rfl⟩
  | go p p' h =>
    obtain ⟨hr, hex, hcells, hp2, hpc, hidx⟩ := h
    dsimp only at c1 c2
    have hus : usedPaths p'.1.cells p'.2.2 = usedPaths p.1.cells p.2.2 := by
      rw [← hp2]; exact (usedPaths_same _ _ hcells _).symm
    have s1 := (go1 p rfl).1
    have t1 := (go2 p' rfl).1
    rw [← hp2] at t1
    refine ⟨by rw [c1, c2, hus], ?_, ?_⟩
    · intro q r hqr hq hv
      rw [c2, t1, ← hp2] at hqr
      obtain ⟨k, j, l, e1, e2, e3⟩ := uses_pair f hl p.2.1 p.1.cells p'.1.cells hcells 0 p.2.2 q r hqr
      have hqu : q ∈ configsUsed S env f := by rw [c1]; exact (List.of_mem_zip e3).1
      obtain ⟨raw, ids, w1, w2, _, w3⟩ := (hwritten.2 q).1 ⟨hq, hqu⟩
      obtain ⟨_, raw', o1, o2⟩ := cellOK_getD (ok2 p' rfl) k (e1 ▸ hq)
      rw [← e1, hcfg, w2] at o1
      cases o1
      dsimp only at o2
      subst e2
      obtain ⟨pk, hpk, v, hvv⟩ := hv
      have hvid : v.id ∈ idsOf (.report (reportOf f p.2.1 (p'.1.cells.getD k {}) j l)) :=
        List.mem_flatMap.2 ⟨pk, hpk, List.mem_map.2 ⟨v, List.mem_append.2 (.inl hvv), rfl⟩⟩
      have hvid' : v.id ∈ ids := by
        refine (w3 v.id).2 ⟨_, by rw [c1, s1]; exact e3, ?_⟩
        rw [← reportIds_eq, mem_reportIds] at hvid ⊢
        rw [strip_databases (strip_getD_of_map hcells k)]
        exact hvid
      unfold reportOf at hpk
      obtain ⟨m, hm, rfl⟩ := List.mem_mapIdx.1 hpk
      rw [transpose_eq] at hvv
      have := (List.mem_filter.1 hvv).2
      have hin : v.id ∈ ignoresFor f (p'.1.cells.getD k {}) := by
        unfold ignoresFor
        rw [if_pos ⟨e1 ▸ hq, by simp [hi]⟩, o2]
        exact List.mem_append.2 (.inl hvid')
      rw [List.contains_iff_mem.2 hin] at this
      cases this
    · funext q
      rw [rc2 p' rfl q, hcfg, hx, rc1 p rfl q, ← hp2]
      have hps := loopPer_same f f rfl rfl p.2.1 p.1.cells p'.1.cells hcells 0 p.2.2 [] [] .nil
      rcases hps.get? q with ⟨g1, g2⟩ | ⟨ids, ids', g1, g2, hids⟩
      · rw [g1, g2]
      · rw [g1, g2]
        have hn := newIgnores_eq hids
        cases env.config q with
        | ok raw => dsimp only; rw [hn]
        | _ => rfl

/-! ### Non-vacuity -/

def sampleUpdate : Flags := { sampleFlags [g!"d", g!"go.mod"] with updateConfigIgnores := true }

/-- Both lockfiles in `d` use its config; `go.mod` has none. -/
example : configsUsed Sorter.insertion sampleEnv sampleUpdate = [g!"d/.osv-detector.yml", g!"d/.osv-detector.yml", []] := by
  decide +kernel
example : (run Sorter.insertion sampleEnv sampleUpdate).config g!"d/.osv-detector.yml" = .ok { ignore := [g!"A", g!"C"] } := by
  decide +kernel
example : ∀ p, sampleEnv.update p = .complete := fun _ => rfl

end Osv
