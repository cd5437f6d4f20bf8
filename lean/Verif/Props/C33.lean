import Verif.Lemmas.Discovery
import Verif.Props.C23
import Verif.Spec.RunSamples
/-! # C33 Parse-as prefixes survive path discovery -/
namespace Osv
open Spec

/-- Every argument asks for exactly one parser and path: those the program splits it into. -/
theorem C33_split (arg a b : Str) : Asks arg a b ↔ splitParseAs arg = (a, b) := asks_iff arg a b

/-- A file given with a prefix is found with this prefix and its cleaned path. -/
theorem C33_found (env : Env) (r : RState) (args : List Str) (g : Str) (hg : g ≠ csvRowName) (arg parser path : Str)
    (hm : arg ∈ args) (ha : Asks arg parser path) (hf : env.path path = .file) :
    wantedParser g parser ++ ':' :: Path.clean path ∈ (findAllLockfiles env r args g).2.1 :=
  (mem_found env r args g hg _).2 ⟨_, _, rfl, .file arg parser path hm ha hf⟩

/-- The stored prefix and path are those used for parsing, also if the path contains colons. -/
theorem C33_parsed (S : Sorter) (env : Env) (args : List Str) (want q : Str) (hw : ':' ∉ want) :
    parseLockfile S env (want ++ ':' :: q) args =
      if want = csvRowName then (⟨q, want, (fromCSV S (env.csvRows args).1 (env.csvRows args).2).1⟩,
        (fromCSV S (env.csvRows args).1 (env.csvRows args).2).2.isSome)
      else if want = csvFileName then
        match env.csvFile q with
        | none => ({}, true)
        | some rows => (⟨q, want, (fromCSV S rows.1 rows.2).1⟩, (fromCSV S rows.1 rows.2).2.isSome)
      else if parserOf want q ∈ parserNames then
        (⟨q, parserOf want q, S.sort pkgLess (env.parse (parserOf want q) q).1⟩, (env.parse (parserOf want q) q).2)
      else ({}, true) := by
  unfold parseLockfile
  dsimp only
  rw [splitParseAs_colon _ _ hw]
  dsimp only
  unfold parseWith
  rw [findParser_eq]
  by_cases h : parserOf want q ∈ parserNames
  · simp only [if_pos h]; rfl
  · simp only [if_neg h]; rfl

/-- In a run, a discovered file (not CSV) is shown with the parser that was asked for and its cleaned path if the parser
exists and succeeds and the config can be read; otherwise an error is printed. -/
theorem C33_run (S : Sorter) (env : Env) (f : Flags) (hs : Started f (run S env f).events) (hg : f.parseAs ≠ csvRowName)
    (want q : Str) (hd : Discovers env f.parseAs f.args want q) (h1 : want ≠ csvRowName) (h2 : want ≠ csvFileName) :
    ((parserOf want q ∈ parserNames ∧ (env.parse (parserOf want q) q).2 = false ∧
        (LocalConfigs f → ∃ c, findConfig env.validURL env.config (Path.dir q) = .ok c)) →
      ∃ r ∈ shown (run S env f).events,
        lockfileOf r = ⟨q, parserOf want q, S.sort pkgLess (env.parse (parserOf want q) q).1⟩) ∧
    (¬ (parserOf want q ∈ parserNames ∧ (env.parse (parserOf want q) q).2 = false ∧
        (LocalConfigs f → ∃ c, findConfig env.validURL env.config (Path.dir q) = .ok c)) →
      (run S env f).exit = 127 ∧ ∃ m, .error m ∈ (run S env f).events ∧ HardMsg m) := by
  obtain ⟨p, hp⟩ := started_go S env f hs
  obtain ⟨hb, hfiles⟩ := readOf_files S env f p hp
  have hw := discovers_colon (badParseAs_false f hb) hd
  have hin : entryOf S env f.args (looksLocal f) (want ++ ':' :: q) ∈
      (readOf S env f).files.map (fun x => (x.lockf, x.err)) := by
    rw [hfiles]
    exact List.mem_map.2 ⟨_, (mem_found env _ f.args _ hg _).2 ⟨want, q, rfl, hd⟩, rfl⟩
  obtain ⟨x, hx, hxe⟩ := List.mem_map.1 hin
  have hpl := C33_parsed S env f.args want q hw
  rw [if_neg h1, if_neg h2] at hpl
  unfold entryOf at hxe
  rw [splitParseAs_colon _ _ hw, hpl] at hxe
  constructor
  · rintro ⟨ha, hb', hc⟩
    rw [if_pos ha, hb'] at hxe
    have hx' : (x.lockf, x.err) =
        (⟨q, parserOf want q, S.sort pkgLess (env.parse (parserOf want q) q).1⟩, false) := by
      rw [hxe]
      split
      · rename_i hl
        obtain ⟨c, hc⟩ := hc ((looksLocal_iff f).1 hl)
        dsimp only
        rw [hc]
      · rfl
    have hmem : x.lockf ∈ (shown (run S env f).events).map lockfileOf := by
      rw [shown_lockfiles S env f hs]
      refine List.mem_map.2 ⟨x, List.mem_filter.2 ⟨hx, ?_⟩, rfl⟩
      rw [(Prod.mk.inj hx').2]; rfl
    obtain ⟨r, hr, hre⟩ := List.mem_map.1 hmem
    exact ⟨r, hr, hre.trans (Prod.mk.inj hx').1⟩
  · intro hn
    suffices hxe' : x.err = true by
      have hm := (C23_failures S env f hs).2 (.inl ⟨x, hx, hxe'⟩)
      exact ⟨(C23_exit_code S env f hs).1 hm, hm⟩
    cases hxx : x.err with
    | true => rfl
    | false =>
      exfalso
      apply hn
      rw [hxx] at hxe
      have hparse : ∀ {A : Lockfile × Bool}, (x.lockf, false) = A → A = (if parserOf want q ∈ parserNames then
          ((⟨q, parserOf want q, S.sort pkgLess (env.parse (parserOf want q) q).1⟩ : Lockfile), (env.parse (parserOf want q) q).2)
          else ({}, true)) → parserOf want q ∈ parserNames ∧ (env.parse (parserOf want q) q).2 = false := by
        intro A h h'
        rw [h'] at h
        split at h
        · exact ⟨‹_›, (Prod.mk.inj h).2.symm⟩
        · cases (Prod.mk.inj h).2
      split at hxe
      · rename_i hl
        dsimp only at hxe
        split at hxe
        · cases (Prod.mk.inj hxe).2
        · rename_i c hc
          obtain ⟨a, b⟩ := hparse hxe rfl
          exact ⟨a, b, fun _ => ⟨_, hc⟩⟩
      · rename_i hl
        obtain ⟨a, b⟩ := hparse hxe rfl
        exact ⟨a, b, fun h => absurd ((looksLocal_iff f).2 h) hl⟩

/-! ### Non-vacuity -/

example : Asks g!"go.mod:./x:y.txt" g!"go.mod" g!"./x:y.txt" := .inr ⟨by decide, rfl⟩
example : Asks g!":./x:y.txt" [] g!"./x:y.txt" := .inr ⟨by decide, rfl⟩

/-- A leading colon asks for inference from the file name. -/
example : parserOf (wantedParser [] []) g!"a:b/go.mod" = g!"go.mod" := by decide

/-- The file `x:y` parsed as `go.mod`. -/
def sampleColon : Env := { sampleEnv with path := fun p => if p = g!"./x:y" then .file else sampleEnv.path p }

example : Started (sampleFlags [g!"go.mod:./x:y"]) (run Sorter.insertion sampleColon (sampleFlags [g!"go.mod:./x:y"])).events ∧
    Discovers sampleColon [] [g!"go.mod:./x:y"] g!"go.mod" g!"x:y" ∧
    (shown (run Sorter.insertion sampleColon (sampleFlags [g!"go.mod:./x:y"])).events).map (fun r => (lockfileOf r).filePath) = [g!"x:y"] := by
  refine ⟨⟨rfl, rfl, ?_⟩, .file g!"go.mod:./x:y" g!"go.mod" g!"./x:y" (by simp) (.inr ⟨by decide, rfl⟩) (by decide), by decide +kernel⟩
  have : ∀ e ∈ (run Sorter.insertion sampleColon (sampleFlags [g!"go.mod:./x:y"])).events,
    e.isErr (fun _ => true) = false := by decide +kernel
  intro m hm
  exact absurd (this _ hm) (by simp [Event.isErr])

end Osv
