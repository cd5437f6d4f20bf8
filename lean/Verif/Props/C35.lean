import Verif.Props.C34
/-! # C35 Config discovery precedence and errors -/
namespace Osv
open Spec

theorem loadConfig_eq (v : Str → Bool) (file : Str → ConfigFile) (p : Str) :
    loadConfig v file p = match file (Path.clean p) with
      | .missing => .error (.notExist (Path.clean p))
      | .unreadable => .error (.unreadable (Path.clean p))
      | .malformed => .error (.malformed (Path.clean p))
      | .ok raw => .ok (newConfig v (Path.clean p) raw) := by
  unfold loadConfig loadRaw
  dsimp only
  cases file (Path.clean p) <;> rfl

/-- The local config is `.osv-detector.yml`, else `.osv-detector.yaml`, else empty; it fails exactly if the chosen file is
broken. -/
theorem C35_precedence (v : Str → Bool) (file : Str → ConfigFile) (dir : Str) :
    (∀ raw, file (ymlPath dir) = .ok raw → findConfig v file dir = .ok (newConfig v (ymlPath dir) raw)) ∧
    (∀ raw, file (ymlPath dir) = .missing → file (yamlPath dir) = .ok raw →
      findConfig v file dir = .ok (newConfig v (yamlPath dir) raw)) ∧
    (file (ymlPath dir) = .missing → file (yamlPath dir) = .missing → findConfig v file dir = .ok ({}, [])) ∧
    ((∃ e, findConfig v file dir = .error e) ↔ BrokenConfig file dir) := by
  have e1 : dir ++ g!"/" ++ g!".osv-detector" ++ g!".yml" = dir ++ g!"/.osv-detector.yml" := by simp
  have e2 : dir ++ g!"/" ++ g!".osv-detector" ++ g!".yaml" = dir ++ g!"/.osv-detector.yaml" := by simp
  unfold findConfig BrokenConfig BrokenFile
  rw [e1, e2, loadConfig_eq, loadConfig_eq]
  unfold ymlPath yamlPath
  cases h1 : file (Path.clean (dir ++ g!"/.osv-detector.yml")) <;>
    cases h2 : file (Path.clean (dir ++ g!"/.osv-detector.yaml")) <;> simp

/-- In a run that looks for local configs, a broken config makes its lockfile fail: an error is printed, the exit code is
127 and no result for this lockfile is shown. -/
theorem C35_broken_config_fails (S : Sorter) (env : Env) (f : Flags) (hs : Started f (run S env f).events)
    (hg : f.parseAs ≠ csvRowName) (hl : LocalConfigs f) (want q : Str) (hd : Discovers env f.parseAs f.args want q)
    (hb : BrokenConfig env.config (Path.dir q)) :
    (run S env f).exit = 127 ∧ (∃ m, .error m ∈ (run S env f).events ∧ HardMsg m) ∧
    ∀ r ∈ shown (run S env f).events, (lockfileOf r).filePath ≠ q := by
  obtain ⟨p, hp⟩ := started_go S env f hs
  obtain ⟨hb', hfiles⟩ := readOf_files S env f p hp
  have hg' := badParseAs_false f hb'
  have hlook := (looksLocal_iff f).2 hl
  obtain ⟨e, he⟩ := (C35_precedence env.validURL env.config (Path.dir q)).2.2.2.2 hb
  have bad : ∀ want, ':' ∉ want → entryOf S env f.args (looksLocal f) (want ++ ':' :: q) = ({}, true) := by
    intro want hw
    unfold entryOf
    rw [if_pos hlook, splitParseAs_colon _ _ hw]
    dsimp only
    rw [he]
  have hin : entryOf S env f.args (looksLocal f) (want ++ ':' :: q) ∈
      (readOf S env f).files.map (fun x => (x.lockf, x.err)) := by
    rw [hfiles]
    exact List.mem_map.2 ⟨_, (mem_found env _ f.args _ hg _).2 ⟨want, q, rfl, hd⟩, rfl⟩
  obtain ⟨x, hx, hxe⟩ := List.mem_map.1 hin
  rw [bad want (discovers_colon hg' hd)] at hxe
  have hm := (C23_failures S env f hs).2 (.inl ⟨x, hx, (Prod.mk.inj hxe).2⟩)
  refine ⟨(C23_exit_code S env f hs).1 hm, hm, ?_⟩
  intro r hr hq
  obtain ⟨y, hy, hye⟩ : ∃ y ∈ (readOf S env f).files, y.err = false ∧ y.lockf = lockfileOf r := by
    have : lockfileOf r ∈ ((readOf S env f).files.filter fun x => !x.err).map (·.lockf) := by
      rw [← shown_lockfiles S env f hs]
      exact List.mem_map.2 ⟨r, hr, rfl⟩
    obtain ⟨y, hy, hye⟩ := List.mem_map.1 this
    obtain ⟨hy, hy'⟩ := List.mem_filter.1 hy
    exact ⟨y, hy, by simpa using hy', hye⟩
  have hym : (y.lockf, y.err) ∈ (readOf S env f).files.map (fun x => (x.lockf, x.err)) := List.mem_map.2 ⟨y, hy, rfl⟩
  rw [hfiles] at hym
  obtain ⟨path, hpath, hpe⟩ := List.mem_map.1 hym
  obtain ⟨w, q', rfl, hd'⟩ := (mem_found env _ f.args _ hg _).1 hpath
  have hw' := discovers_colon hg' hd'
  rw [hye.1, hye.2] at hpe
  -- the path of the entry is the path of the lockfile
  have hqq : q' = q := by
    have hpl : parseLockfile S env (w ++ ':' :: q') f.args = (lockfileOf r, false) := by
      unfold entryOf at hpe
      rw [if_pos hlook] at hpe
      split at hpe
      · cases (Prod.mk.inj hpe).2
      · exact hpe
    rw [C33_parsed S env f.args w q' hw'] at hpl
    rw [← hq]
    split at hpl
    · rw [← (Prod.mk.inj hpl).1]
    · split at hpl
      · split at hpl
        · cases (Prod.mk.inj hpl).2
        · rw [← (Prod.mk.inj hpl).1]
      · split at hpl
        · rw [← (Prod.mk.inj hpl).1]
        · cases (Prod.mk.inj hpl).2
  rw [hqq] at hpe
  rw [bad w hw'] at hpe
  cases (Prod.mk.inj hpe).2

/-- An explicit config that cannot be loaded ends the run with exit code 127 and without results. -/
theorem C35_explicit_config (S : Sorter) (env : Env) (f : Flags) (hv : f.printVersion = false) (he : f.listEcosystems = false)
    (hl : f.listPackages = false) (hn : f.noConfig = false) (hc : f.configPath ≠ [])
    (hb : env.config (Path.clean f.configPath) = .missing ∨ BrokenFile (env.config (Path.clean f.configPath)))
    (hnp : ∀ m, .error m ∈ (run S env f).events → m ≠ .noPaths ∧ ∀ n, m ≠ .badParseAs n) :
    (run S env f).exit = 127 ∧ (∃ e, .error (.badConfig e) ∈ (run S env f).events) ∧ shown (run S env f).events = [] := by
  have hload : ∃ e, loadConfig env.validURL env.config f.configPath = .error e := by
    rw [loadConfig_eq]
    rcases hb with hb | hb | hb <;> rw [hb] <;> exact ⟨_, rfl⟩
  obtain ⟨e, hload⟩ := hload
  simp only [run_error_iff] at hnp
  have hbody : ∃ r, runBody S env f = ⟨127, r, env.config⟩ ∧ .error (.badConfig e) ∈ r.events := by
    unfold runBody
    rw [hv, he]
    dsimp only
    rw [if_neg (by simp), if_neg (by simp)]
    split
    · rename_i hbp
      exfalso
      refine (hnp (.badParseAs f.parseAs) ?_).2 _ rfl
      unfold runBody
      rw [hv, he]
      dsimp only
      rw [if_neg (by simp), if_neg (by simp), if_pos hbp]
      unfold printParsers
      generalize listParsers ++ [csvFileName, csvRowName] = ps
      have : ∀ r : RState, Event.error (.badParseAs f.parseAs) ∈ r.events →
          Event.error (.badParseAs f.parseAs) ∈ (ps.foldl (fun r p => r.printError (.parserName p)) r).events := by
        induction ps with
        | nil => exact fun r h => h
        | cons p ps ih => intro r h; exact ih _ (by simp [RState.printError, h])
      exact this _ (by simp [RState.printError])
    · rename_i hbp
      split
      · rename_i hlen
        exfalso
        refine (hnp .noPaths ?_).1 rfl
        unfold runBody
        rw [hv, he]
        dsimp only
        rw [if_neg (by simp), if_neg (by simp), if_neg hbp, if_pos hlen]
        simp [RState.printError]
      · have hst : startConfig env f (findAllLockfiles env { outputAsJSON := f.json } f.args f.parseAs).1 =
            ((findAllLockfiles env { outputAsJSON := f.json } f.args f.parseAs).1.printError (.badConfig e), none) := by
          unfold startConfig
          rw [hl, hn]
          simp [hc, hload]
        rw [hst]
        exact ⟨_, rfl, by simp [RState.printError]⟩
  obtain ⟨r, hbody, hmem⟩ := hbody
  have hexit : (run S env f).exit = (runBody S env f).exit := rfl
  refine ⟨by rw [hexit, hbody], ⟨e, (run_error_iff S env f _).2 (by rw [hbody]; exact hmem)⟩, ?_⟩
  rw [run_shown]
  cases runCase S env f with
  | info h _ _ => simp [hv, he] at h
  | stopped _ _ _ _ hsh _ _ => exact hsh
  | normal _ inv =>
    have := inv.stop
    rw [hbody] at this
    have h2 : r.sum.stop = true := (any_isErr _ _).2 ⟨_, hmem, rfl⟩
    rw [h2] at this
    cases this

/-! ### Non-vacuity -/

/-- The config next to `d/go.mod` is malformed. -/
def sampleBroken : Env := { sampleEnv with config := fun p => if p = g!"d/.osv-detector.yaml" then .malformed else .missing }

example : BrokenConfig sampleBroken.config (Path.dir g!"d/go.mod") ∧ LocalConfigs (sampleFlags [g!"d", g!"go.mod"]) ∧
    Discovers sampleBroken [] [g!"d", g!"go.mod"] [] g!"d/go.mod" ∧
    Started (sampleFlags [g!"d", g!"go.mod"]) (run Sorter.insertion sampleBroken (sampleFlags [g!"d", g!"go.mod"])).events := by
  refine ⟨.inr ⟨by decide, .inr (by decide)⟩, ⟨rfl, rfl, rfl⟩, ?_, ⟨rfl, rfl, ?_⟩⟩
  · exact .entry g!"d" [] g!"d" g!"go.mod" _ (by simp) (.inl ⟨by decide, rfl, rfl⟩) rfl (by simp) (.inr (by decide))
  · have : ∀ e ∈ (run Sorter.insertion sampleBroken (sampleFlags [g!"d", g!"go.mod"])).events,
      e.isErr ErrMsg.isStop = false := by decide +kernel
    intro m hm
    have := this _ hm
    refine ⟨?_, ?_, ?_⟩ <;> (intros; rintro rfl; cases this)

end Osv
