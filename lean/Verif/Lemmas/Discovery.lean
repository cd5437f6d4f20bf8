import Verif.Lemmas.Databases
import Verif.Lemmas.Paths
import Verif.Spec.Discovery
/-! # Path discovery -/
namespace Osv
open Spec

theorem asks_iff (arg a b : Str) : Asks arg a b ↔ splitParseAs arg = (a, b) := by
  constructor
  · rintro (⟨h, rfl, rfl⟩ | ⟨h, rfl⟩)
    · exact splitParseAs_none _ h
    · exact splitParseAs_colon _ _ h
  · intro h
    by_cases hc : ':' ∈ arg
    · obtain ⟨x, y, hx, rfl⟩ := exists_colon arg hc
      rw [splitParseAs_colon _ _ hx] at h
      cases h
      exact .inr ⟨hx, rfl⟩
    · rw [splitParseAs_none _ hc] at h
      cases h
      exact .inl ⟨hc, rfl, rfl⟩

/-- The paths found for one argument. -/
def foundFor (env : Env) (g arg : Str) : List Str :=
  let pa := wantedParser g (splitParseAs arg).1
  (findLockfiles env (splitParseAs arg).2 pa).1.map fun p => pa ++ g!":" ++ Path.clean p

theorem findAll_paths (env : Env) (r : RState) (args : List Str) (g : Str) :
    (findAllLockfiles env r args g).2.1 = if g = csvRowName then [csvRowName ++ g!":-"] else args.flatMap (foundFor env g) := by
  unfold findAllLockfiles
  split
  · rfl
  · have : ∀ acc : RState × List Str × Bool, (args.foldl (findStep env g) acc).2.1 = acc.2.1 ++ args.flatMap (foundFor env g) := by
      induction args with
      | nil => simp
      | cons a as ih =>
        intro acc
        rw [List.foldl_cons, ih, List.flatMap_cons, ← List.append_assoc]
        rfl
    rw [this]; rfl

theorem findParser_eq (path pa : Str) : findParser path pa = if parserOf pa path ∈ parserNames then some (parserOf pa path) else none := by
  unfold findParser parserOf
  simp only [List.contains_iff_mem]

theorem findParser_none (path pa : Str) : findParser path pa = none ↔ parserOf pa path ∉ parserNames := by
  rw [findParser_eq]; split <;> simp_all

/-- What a path can be found for. -/
theorem mem_findLockfiles (env : Env) (path pa q : Str) :
    q ∈ (findLockfiles env path pa).1 ↔ (env.path path = .file ∧ q = path) ∨
      ∃ entries name, env.path path = .dir entries ∧ (name, false) ∈ entries ∧
        (pa = g!"csv-file" ∨ parserOf pa name ∈ parserNames) ∧ q = Path.join2 path name := by
  unfold findLockfiles
  cases hp : env.path path with
  | cannotOpen => simp
  | cannotStat => simp
  | cannotList => simp
  | file => simp
  | dir entries =>
    dsimp only
    rw [mem_sortStr, List.mem_filterMap]
    constructor
    · rintro ⟨⟨n, d⟩, he, h⟩
      right
      dsimp only at h
      split at h
      · cases h
      · rename_i hd
        split at h
        · cases h
        · rename_i hk
          cases h
          have hd' : d = false := by simpa using hd
          subst hd'
          refine ⟨entries, n, rfl, he, ?_, rfl⟩
          by_cases hc : pa = g!"csv-file"
          · exact .inl hc
          · right
            rw [findParser_none] at hk
            refine Classical.byContradiction fun hn => hk ⟨hc, hn⟩
    · rintro (⟨h, _⟩ | ⟨es, n, he, hm, hk, rfl⟩)
      · cases h
      · cases he
        refine ⟨(n, false), hm, ?_⟩
        dsimp only
        rw [if_neg (by simp), if_neg]
        rintro ⟨h1, h2⟩
        rw [findParser_none] at h2
        rcases hk with hk | hk
        · exact h1 hk
        · exact h2 hk

theorem mem_found (env : Env) (r : RState) (args : List Str) (g : Str) (hg : g ≠ csvRowName) (p : Str) :
    p ∈ (findAllLockfiles env r args g).2.1 ↔ ∃ want q, p = want ++ ':' :: q ∧ Discovers env g args want q := by
  rw [findAll_paths, if_neg hg, List.mem_flatMap]
  constructor
  · rintro ⟨arg, ha, h⟩
    obtain ⟨q, hq, rfl⟩ := List.mem_map.1 h
    have hasks := (asks_iff arg (splitParseAs arg).1 (splitParseAs arg).2).2 rfl
    refine ⟨wantedParser g (splitParseAs arg).1, Path.clean q, by simp, ?_⟩
    rcases (mem_findLockfiles _ _ _ _).1 hq with ⟨hf, rfl⟩ | ⟨es, n, hd, hm, hk, rfl⟩
    · exact .file _ _ _ ha hasks hf
    · exact .entry _ _ _ _ _ ha hasks hd hm hk
  · rintro ⟨want, q, rfl, h⟩
    cases h with
    | file arg parser path hm hasks hf =>
      rw [asks_iff] at hasks
      refine ⟨arg, hm, List.mem_map.2 ⟨path, ?_, ?_⟩⟩
      · rw [hasks]; exact (mem_findLockfiles _ _ _ _).2 (.inl ⟨hf, rfl⟩)
      · rw [hasks]; simp
    | entry arg parser path name entries hm hasks hd he hk =>
      rw [asks_iff] at hasks
      refine ⟨arg, hm, List.mem_map.2 ⟨Path.join2 path name, ?_, ?_⟩⟩
      · rw [hasks]; exact (mem_findLockfiles _ _ _ _).2 (.inr ⟨entries, name, hd, he, hk, rfl⟩)
      · rw [hasks]; simp

/-- The lockfile and error flag for a path. -/
def entryOf (S : Sorter) (env : Env) (args : List Str) (cl : Bool) (p : Str) : Lockfile × Bool :=
  if cl then
    match findConfig env.validURL env.config (Path.dir (splitParseAs p).2) with
    | .error _ => ({}, true)
    | .ok _ => parseLockfile S env p args
  else parseLockfile S env p args

theorem readStep_files (S : Sorter) (env : Env) (args : List Str) (cl : Bool) (s : ReadState) (p : Str) :
    (readStep S env args cl s p).files.map (fun x => (x.lockf, x.err)) =
      s.files.map (fun x => (x.lockf, x.err)) ++ [entryOf S env args cl p] := by
  unfold readStep entryOf
  dsimp only
  split
  · split <;> (rename_i he; simp [he])
  · split <;> simp

theorem readAll_files (S : Sorter) (env : Env) (r : RState) (paths args : List Str) (cl : Bool) (c : Config) :
    (readAllLockfiles S env r paths args cl c).files.map (fun x => (x.lockf, x.err)) = paths.map (entryOf S env args cl) := by
  unfold readAllLockfiles
  have : ∀ s : ReadState, (paths.foldl (readStep S env args cl) s).files.map (fun x => (x.lockf, x.err)) =
      s.files.map (fun x => (x.lockf, x.err)) ++ paths.map (entryOf S env args cl) := by
    induction paths with
    | nil => simp
    | cons p ps ih =>
      intro s
      rw [List.foldl_cons, ih, readStep_files, List.map_cons]
      simp
  rw [this]; rfl

/-- Whether local configs are looked for. -/
def looksLocal (f : Flags) : Bool := !f.listPackages && !f.noConfig && decide (f.configPath = [])

theorem looksLocal_iff (f : Flags) : looksLocal f = true ↔ LocalConfigs f := by
  unfold looksLocal LocalConfigs
  simp [and_assoc]

/-- The lockfiles of a run that gets that far. -/
theorem readOf_files (S : Sorter) (env : Env) (f : Flags) (p : LoopState × List DB × List FileEntry)
    (hp : runPrep S env f = .inr p) :
    badParseAs f = false ∧
    (readOf S env f).files.map (fun x => (x.lockf, x.err)) =
      (findAllLockfiles env { outputAsJSON := f.json } f.args f.parseAs).2.1.map (entryOf S env f.args (looksLocal f)) := by
  unfold runPrep at hp
  unfold readOf
  dsimp only at hp ⊢
  generalize findAllLockfiles env { outputAsJSON := f.json } f.args f.parseAs = found at *
  split at hp
  · cases hp
  split at hp
  · cases hp
  split at hp
  · cases hp
  rename_i hb
  split at hp
  · cases hp
  refine ⟨by simpa using hb, ?_⟩
  have hcl : ∀ r c cl, startConfig env f found.1 = (r, some (c, cl)) → cl = looksLocal f := by
    intro r c cl h
    unfold startConfig at h
    unfold looksLocal
    split at h
    · rename_i hl; cases h; simp [hl]
    · rename_i hl
      split at h
      · rename_i hc
        split at h <;> cases h
        simp only [Bool.and_eq_true, decide_eq_true_eq] at hc
        simp [hc.2]
      · rename_i hc
        cases h
        cases hn : f.noConfig with
        | true => simp
        | false =>
          have : f.configPath = [] := by simpa [hn] using hc
          simp [hl, this]
  rcases hst : startConfig env f found.1 with ⟨r, o⟩
  rw [hst] at hp
  cases o with
  | none => cases hp
  | some cc =>
    obtain ⟨c, cl⟩ := cc
    dsimp only
    rw [readAll_files, hcl r c cl hst]

theorem badParseAs_false (f : Flags) (h : badParseAs f = false) : ':' ∉ f.parseAs := by
  unfold badParseAs at h
  by_cases h1 : f.parseAs = []
  · simp [h1]
  by_cases h2 : f.parseAs = csvFileName
  · rw [h2]; decide
  by_cases h3 : f.parseAs = csvRowName
  · rw [h3]; decide
  · have h4 : (findParser [] f.parseAs).isNone = false := by simpa [h1, h2, h3] using h
    have : parserOf f.parseAs [] ∈ parserNames := by
      refine Classical.byContradiction fun hn => ?_
      rw [(findParser_none _ _).2 hn] at h4
      cases h4
    unfold parserOf at this
    rw [if_neg h1] at this
    exact (by decide : ∀ n ∈ parserNames, ':' ∉ n) _ this

/-- The parser of a discovered file has no colon in its name. -/
theorem discovers_colon {env : Env} {g : Str} {args : List Str} {want q : Str} (hg : ':' ∉ g)
    (h : Discovers env g args want q) : ':' ∉ want := by
  have key : ∀ arg parser path, Asks arg parser path → ':' ∉ wantedParser g parser := by
    intro arg parser path ha
    unfold wantedParser
    split
    · exact hg
    · rcases ha with ⟨_, rfl, _⟩ | ⟨h, _⟩
      · simp
      · exact h
  cases h with
  | file arg parser path _ ha _ => exact key _ _ _ ha
  | entry arg parser path _ _ _ ha _ _ _ => exact key _ _ _ ha

theorem shown_lockfiles (S : Sorter) (env : Env) (f : Flags) (h : Started f (run S env f).events) :
    (shown (run S env f).events).map lockfileOf = ((readOf S env f).files.filter fun x => !x.err).map (·.lockf) := by
  obtain ⟨hv, hl, hstop⟩ := h
  rw [run_shown]
  simp only [run_error_iff] at hstop
  cases runCase S env f with
  | info h _ _ => simp [hv, hl] at h
  | stopped _ _ _ hst _ _ _ =>
    obtain ⟨m, hm, hs⟩ := (any_isErr _ _).1 hst
    obtain ⟨h1, h2, h3⟩ := hstop m hm
    cases m with
    | noPaths => exact absurd rfl h1
    | badParseAs n => exact absurd rfl (h2 n)
    | badConfig e => exact absurd rfl (h3 e)
    | _ => cases hs
  | normal _ inv => exact inv.shown

end Osv
