import Verif.Props.C34
/-!
# C23 Exit code classification: the other exit codes
-/
namespace Osv
open Spec

/-- The parser asked for with `--parse-as` is known. -/
def KnownParser (name : Str) : Prop := name = [] ∨ name = g!"csv-file" ∨ name = g!"csv-row" ∨ name ∈ parserNames

theorem badParseAs_iff (f : Flags) : badParseAs f = true ↔ ¬ KnownParser f.parseAs := by
  unfold badParseAs KnownParser findParser
  by_cases h1 : f.parseAs = []
  · simp [h1]
  · have e2 : g!"csv-file" = csvFileName := rfl
    have e3 : g!"csv-row" = csvRowName := rfl
    rw [e2, e3]
    simp [h1, and_assoc]

/-- Nothing to check was found: either because there is nothing, or because paths could not be opened. -/
theorem found_none (env : Env) (r : RState) (args : List Str) (g : Str) :
    (findAllLockfiles env r args g).2.1.length = 0 ↔ g ≠ g!"csv-row" ∧ ¬ ∃ want q, Discovers env g args want q := by
  rw [List.length_eq_zero_iff]
  by_cases hg : g = csvRowName
  · unfold findAllLockfiles; rw [if_pos hg]; simp [hg, csvRowName]
  · have hg' : g ≠ g!"csv-row" := hg
    simp only [hg', ne_eq, not_false_eq_true, true_and]
    constructor
    · rintro h ⟨want, q, hd⟩
      have := (C34_exact env r args g hg _).2 ⟨want, q, rfl, hd⟩
      rw [h] at this; cases this
    · intro h
      refine List.eq_nil_iff_forall_not_mem.2 fun p hp => h ?_
      obtain ⟨want, q, _, hd⟩ := (C34_exact env r args g hg p).1 hp
      exact ⟨want, q, hd⟩

/-- **C23** (128). The exit code is 128 exactly when paths were given, all of them could be opened, and nothing that can be
parsed was found in them. -/
theorem C23_exit_128 (S : Sorter) (env : Env) (f : Flags) :
    (run S env f).exit = 128 ↔ f.printVersion = false ∧ f.listEcosystems = false ∧ KnownParser f.parseAs ∧
      f.parseAs ≠ g!"csv-row" ∧ f.args ≠ [] ∧
      (∀ arg ∈ f.args, ∀ parser path, Asks arg parser path → env.path path ≠ .cannotOpen) ∧
      ¬ ∃ want q, Discovers env f.parseAs f.args want q := by
  have hnorm : ∀ x j h0 a0 files, FinalInv j h0 a0 files x → x.exit ≠ 128 := by
    intro x j h0 a0 files h
    rw [h.exit]; unfold exitOf; repeat' split
    all_goals simp
  rw [show (run S env f).exit = (runBody S env f).exit from rfl]
  by_cases hn : f.printVersion = false ∧ f.listEcosystems = false ∧ badParseAs f = false ∧
      (findAllLockfiles env { outputAsJSON := f.json } f.args f.parseAs).2.1.length = 0
  · obtain ⟨hv, hl, hb, hz⟩ := hn
    have hk : KnownParser f.parseAs := Classical.byContradiction fun h => by
      rw [(badParseAs_iff f).2 h] at hb; cases hb
    have he : (runBody S env f).exit = if decide (f.args.length > 0) &&
        !(findAllLockfiles env { outputAsJSON := f.json } f.args f.parseAs).2.2 then 128 else 127 := by
      unfold runBody
      simp [hv, hl, hb, hz]
    obtain ⟨hg, hd⟩ := (found_none ..).1 hz
    have herr := (C34_errors env { outputAsJSON := f.json } f.args f.parseAs).1
    rw [he]
    simp only [hv, hl, hk, hg, hd, ne_eq, not_false_eq_true, true_and, and_true]
    constructor
    · intro h
      split at h
      · rename_i hc
        simp only [Bool.and_eq_true, decide_eq_true_eq, Bool.not_eq_true'] at hc
        refine ⟨fun h => by simp [h] at hc, fun arg ha parser path hasks hno => ?_⟩
        rw [herr.2 ⟨hg, arg, ha, parser, path, hasks, hno⟩] at hc
        cases hc.2
      · cases h
    · rintro ⟨hne, hall⟩
      rw [if_pos]
      rw [Bool.and_eq_true, decide_eq_true_eq, Bool.not_eq_true']
      refine ⟨List.length_pos_iff.2 hne, ?_⟩
      cases hx : (findAllLockfiles env { outputAsJSON := f.json } f.args f.parseAs).2.2 with
      | false => rfl
      | true =>
        obtain ⟨_, arg, ha, parser, path, hasks, hno⟩ := herr.1 hx
        exact absurd hno (hall arg ha parser path hasks)
  · refine iff_of_false ?_ ?_
    · intro h
      cases runCase S env f with
      | info _ he _ => rw [h] at he; cases he
      | normal _ inv => exact hnorm _ _ _ _ _ inv h
      | stopped hvl hexit _ _ _ _ _ =>
        rcases hexit with he | ⟨_, hb, hz⟩
        · rw [h] at he; cases he
        · exact hn ⟨hvl.1, hvl.2, hb, hz⟩
    · rintro ⟨hv, hl, hk, hg, _, _, hd⟩
      refine hn ⟨hv, hl, ?_, (found_none ..).2 ⟨hg, hd⟩⟩
      cases hb : badParseAs f with
      | false => rfl
      | true => exact absurd hk ((badParseAs_iff f).1 hb)

/-- **C23** (information). With `--version` or `--list-ecosystems` nothing else happens and the exit code is 0. -/
theorem C23_information (S : Sorter) (env : Env) (f : Flags) (h : f.printVersion = true ∨ f.listEcosystems = true) :
    (run S env f).exit = 0 ∧ (run S env f).config = env.config ∧ ∀ m, .error m ∉ (run S env f).events := by
  rw [show (run S env f).exit = (runBody S env f).exit from rfl,
    show (run S env f).config = (runBody S env f).config from rfl]
  simp only [run_error_iff]
  have hc : (runBody S env f).config = env.config := by
    unfold runBody
    rcases h with h | h
    · simp [h]
    · cases hv : f.printVersion <;> simp [h]
  cases runCase S env f with
  | info _ he hs =>
    refine ⟨he, hc, fun m hm => ?_⟩
    have := (sum_any_iff _).2 ⟨m, hm⟩
    rw [hs] at this; cases this
  | stopped hvl => rcases h with h | h <;> simp [h] at hvl
  | normal hvl => rcases h with h | h <;> simp [h] at hvl

/-- **C23** (codes). There are no other exit codes than 0, 1, 127 and 128, and a run that stops before checking anything ends
with 127, unless it ends with 128. -/
theorem C23_codes (S : Sorter) (env : Env) (f : Flags) :
    (run S env f).exit ∈ [0, 1, 127, 128] ∧
    ((∃ m, .error m ∈ (run S env f).events ∧ (m = .noPaths ∨ (∃ n, m = .badParseAs n) ∨ ∃ e, m = .badConfig e)) →
      (run S env f).exit = 127 ∨ (run S env f).exit = 128) := by
  rw [show (run S env f).exit = (runBody S env f).exit from rfl]
  simp only [run_error_iff]
  cases runCase S env f with
  | info _ he hs =>
    refine ⟨by simp [he], ?_⟩
    rintro ⟨m, hm, _⟩
    have := (sum_any_iff _).2 ⟨m, hm⟩
    rw [hs] at this; cases this
  | stopped _ he => rcases he with he | ⟨he, _⟩ <;> simp [he]
  | normal _ inv =>
    refine ⟨?_, ?_⟩
    · rw [inv.exit]; unfold exitOf; repeat' split
      all_goals simp
    · rintro ⟨m, hm, hk⟩
      have : (runBody S env f).r.sum.stop = true := (any_isErr _ _).2 ⟨m, hm, by
        rcases hk with rfl | ⟨_, rfl⟩ | ⟨_, rfl⟩ <;> rfl⟩
      rw [inv.stop] at this; cases this

/-! ### Non-vacuity -/

/-- Directory `e` has nothing that can be parsed; `nope` cannot be opened. -/
def emptyDirEnv : Env := { sampleEnv with path := fun p => if p = g!"e" then .dir [(g!"x.txt", false)] else sampleEnv.path p }

example : (run Sorter.insertion emptyDirEnv (sampleFlags [g!"e"])).exit = 128 := by decide +kernel
example : (run Sorter.insertion emptyDirEnv (sampleFlags [g!"e", g!"nope"])).exit = 127 := by decide +kernel
example : (run Sorter.insertion emptyDirEnv (sampleFlags [])).exit = 127 := by decide +kernel

end Osv
