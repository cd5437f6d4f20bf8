import Verif.Lemmas.Discovery
import Verif.Lemmas.Update
import Verif.Props.C23
import Verif.Spec.RunSamples
/-! # C61 Listing packages never touches databases or configs -/
namespace Osv
open Spec

/-- The parts of the outside world that `--list-packages` may depend on are the same. -/
structure SameInputs (a b : Env) : Prop where
  path : a.path = b.path
  parse : a.parse = b.parse
  csvFile : a.csvFile = b.csvFile
  csvRows : a.csvRows = b.csvRows

theorem findAll_sameInputs {a b : Env} (h : SameInputs a b) (r : RState) (args : List Str) (g : Str) :
    findAllLockfiles a r args g = findAllLockfiles b r args g := by
  have : findStep a g = findStep b g := by
    funext acc arg
    unfold findStep findLockfiles
    rw [h.path]
  unfold findAllLockfiles
  rw [this]

theorem parseLockfile_sameInputs {a b : Env} (h : SameInputs a b) (S : Sorter) (p : Str) (args : List Str) :
    parseLockfile S a p args = parseLockfile S b p args := by
  unfold parseLockfile parseWith
  rw [h.parse, h.csvFile, h.csvRows]

/-- What is visible of the loop over the lockfiles. -/
def loopView (s : LoopState) : RState × SMap (List Str) × Nat × Nat := (s.r, s.perConfig, s.exit, s.i)

theorem loopStep_listing (f : Flags) (hl : f.listPackages = true) (dbs dbs' : List DB) (s s' : LoopState)
    (h : loopView s = loopView s') (x x' : FileEntry) (hx : (x.lockf, x.err) = (x'.lockf, x'.err)) :
    loopView (loopStep f dbs s x) = loopView (loopStep f dbs' s' x') := by
  obtain ⟨r, cells, per, e, i⟩ := s
  obtain ⟨r', cells', per', e', i'⟩ := s'
  obtain ⟨l, c, er⟩ := x
  obtain ⟨l', c', er'⟩ := x'
  simp only [loopView, Prod.mk.injEq] at h hx
  obtain ⟨rfl, rfl, rfl, rfl⟩ := h
  obtain ⟨rfl, rfl⟩ := hx
  unfold loopStep loopView
  dsimp only
  cases er with
  | true => simp
  | false => simp [hl]

theorem loop_listing (f : Flags) (hl : f.listPackages = true) (dbs dbs' : List DB) (files files' : List FileEntry)
    (hf : files.map (fun x => (x.lockf, x.err)) = files'.map (fun x => (x.lockf, x.err))) (s s' : LoopState)
    (h : loopView s = loopView s') :
    loopView (files.foldl (loopStep f dbs) s) = loopView (files'.foldl (loopStep f dbs') s') := by
  induction files generalizing files' s s' with
  | nil =>
    cases files' with
    | nil => exact h
    | cons y ys => cases hf
  | cons x xs ih =>
    cases files' with
    | nil => cases hf
    | cons y ys =>
      injection hf with h1 h2
      exact ih ys h2 _ _ (loopStep_listing f hl dbs dbs' s s' h x y h1)

theorem readAll_listing {a b : Env} (h : SameInputs a b) (S : Sorter) (r : RState) (paths args : List Str) :
    (readAllLockfiles S a r paths args false {}).files.map (fun x => (x.lockf, x.err)) =
      (readAllLockfiles S b r paths args false {}).files.map (fun x => (x.lockf, x.err)) ∧
    (readAllLockfiles S a r paths args false {}).r = r := by
  refine ⟨?_, ?_⟩
  · rw [readAll_files, readAll_files]
    apply List.map_congr_left
    intro p _
    unfold entryOf
    simp [parseLockfile_sameInputs h]
  · unfold readAllLockfiles
    have : ∀ s : ReadState, (paths.foldl (readStep S a args false) s).r = s.r := by
      induction paths with
      | nil => exact fun _ => rfl
      | cons p ps ih =>
        intro s
        rw [List.foldl_cons, ih]
        unfold readStep
        dsimp only
        rw [if_neg (by simp)]
        split <;> rfl
    exact this _

theorem loop_perConfig (f : Flags) (hl : f.listPackages = true) (dbs : List DB) (files : List FileEntry) (s : LoopState) :
    (files.foldl (loopStep f dbs) s).perConfig = s.perConfig := by
  induction files generalizing s with
  | nil => rfl
  | cons x xs ih =>
    rw [List.foldl_cons, ih]
    unfold loopStep
    dsimp only
    by_cases hx : x.err = true
    · rw [if_pos hx]
    · rw [if_neg hx, if_pos hl]

/-- The body of a listing run, as a function of what was found. -/
theorem runBody_listing {a b : Env} (h : SameInputs a b) (S : Sorter) (f : Flags) (hl : f.listPackages = true) :
    (runBody S a f).exit = (runBody S b f).exit ∧ (runBody S a f).r = (runBody S b f).r ∧
    (runBody S a f).config = a.config := by
  unfold runBody
  dsimp only
  rw [findAll_sameInputs h]
  split
  · exact ⟨rfl, rfl, rfl⟩
  split
  · exact ⟨rfl, rfl, rfl⟩
  split
  · exact ⟨rfl, rfl, rfl⟩
  generalize findAllLockfiles b { outputAsJSON := f.json } f.args f.parseAs = found
  split
  · exact ⟨rfl, rfl, rfl⟩
  · have hst : ∀ env : Env, startConfig env f found.1 = (found.1, some ({}, false)) := by
      intro env; unfold startConfig; rw [if_pos hl]
    rw [hst a, hst b]
    dsimp only
    have hv : loopView ((prepare S a f found.1 found.2.1 {} false).2.2.foldl
          (loopStep f (prepare S a f found.1 found.2.1 {} false).2.1) (prepare S a f found.1 found.2.1 {} false).1) =
        loopView ((prepare S b f found.1 found.2.1 {} false).2.2.foldl
          (loopStep f (prepare S b f found.1 found.2.1 {} false).2.1) (prepare S b f found.1 found.2.1 {} false).1) := by
      apply loop_listing f hl
      · exact (readAll_listing h S found.1 found.2.1 f.args).1
      · unfold prepare loadDatabases
        dsimp only
        rw [if_pos hl, if_pos hl, (readAll_listing h S found.1 found.2.1 f.args).2,
          (readAll_listing (b := b) ⟨rfl, rfl, rfl, rfl⟩ S found.1 found.2.1 f.args).2]
        rfl
    have hper := loop_perConfig f hl (prepare S a f found.1 found.2.1 {} false).2.1 (prepare S a f found.1 found.2.1 {} false).2.2
      (prepare S a f found.1 found.2.1 {} false).1
    have hper0 : (prepare S a f found.1 found.2.1 {} false).1.perConfig = [] := rfl
    rw [hper0] at hper
    generalize (prepare S a f found.1 found.2.1 {} false).2.2.foldl
      (loopStep f (prepare S a f found.1 found.2.1 {} false).2.1) (prepare S a f found.1 found.2.1 {} false).1 = s at *
    generalize (prepare S b f found.1 found.2.1 {} false).2.2.foldl
      (loopStep f (prepare S b f found.1 found.2.1 {} false).2.1) (prepare S b f found.1 found.2.1 {} false).1 = s' at *
    obtain ⟨r, cells, per, e, i⟩ := s
    obtain ⟨r', cells', per', e', i'⟩ := s'
    simp only [loopView, Prod.mk.injEq] at hv
    obtain ⟨rfl, rfl, rfl, rfl⟩ := hv
    have hper : per = [] := hper
    subst hper
    unfold finish
    cases f.updateConfigIgnores <;> exact ⟨rfl, rfl, rfl⟩

/-- With `--list-packages` the exit code and everything printed are the same whatever the configs, databases, URLs and
map iteration orders are, and no config is changed. -/
theorem C61_non_interference (S : Sorter) (a b : Env) (h : SameInputs a b) (f : Flags) (hl : f.listPackages = true) :
    (run S a f).exit = (run S b f).exit ∧ (run S a f).events = (run S b f).events ∧ (run S a f).config = a.config := by
  obtain ⟨h1, h2, h3⟩ := runBody_listing h S f hl
  unfold run
  dsimp only
  rw [h1, h2, h3]
  exact ⟨rfl, rfl, rfl⟩

/-- No message about a database or a config is ever printed. -/
theorem C61_silent (S : Sorter) (env : Env) (f : Flags) (hl : f.listPackages = true) (e : Event) (he : e ∈ (run S env f).events) :
    (∀ n, e ≠ .error (.dbLoad n)) ∧ (∀ p n, e ≠ .error (.dbCheck p n)) ∧ (∀ c, e ≠ .error (.badConfig c)) ∧
    (∀ p d, e ≠ .error (.invalidDatabase p d)) ∧ (∀ p, e ≠ .error (.updateConfig p)) ∧ (∀ n, e ≠ .warning n) ∧
    (∀ r, e ≠ .result (.report r)) := by
  -- in an environment without configs whose databases cannot be loaded the same is printed, so it suffices to look at the
  -- messages that can be printed at all
  let ok : Event → Bool := fun e => match e with
    | .error (.dbLoad _) | .error (.dbCheck _ _) | .error (.badConfig _) | .error (.invalidDatabase _ _)
    | .error (.updateConfig _) | .warning _ | .result (.report _) => false
    | _ => true
  suffices hok : ok e = true by
    refine ⟨?_, ?_, ?_, ?_, ?_, ?_, ?_⟩ <;> (intros; rintro rfl; cases hok)
  have pe : ∀ (r : RState) (m : ErrMsg), ok (.error m) = true → (∀ e ∈ r.events, ok e = true) →
      ∀ e ∈ (r.printError m).events, ok e = true := by
    intro r m hm h e he
    rcases List.mem_append.1 he with he | he
    · exact h e he
    · rw [List.mem_singleton.1 he]; exact hm
  have pt : ∀ (r : RState) (m : TextMsg), (∀ e ∈ r.events, ok e = true) → ∀ e ∈ (r.printText m).events, ok e = true := by
    intro r m h e he
    rcases List.mem_append.1 he with he | he
    · exact h e he
    · rw [List.mem_singleton.1 he]
  have pl : ∀ (r : RState) (l : Lockfile), (∀ e ∈ r.events, ok e = true) →
      ∀ e ∈ (r.printResult (.lockfile l)).events, ok e = true := by
    intro r l h e he
    unfold RState.printResult at he
    split at he
    · exact h e he
    · rcases List.mem_append.1 he with he | he
      · exact h e he
      · rw [List.mem_singleton.1 he]
  have pf : ∀ {β : Type} (g : RState → β → RState) (bs : List β) (r : RState),
      (∀ r b, (∀ e ∈ r.events, ok e = true) → ∀ e ∈ (g r b).events, ok e = true) → (∀ e ∈ r.events, ok e = true) →
      ∀ e ∈ (bs.foldl g r).events, ok e = true := by
    intro β g bs
    induction bs with
    | nil => exact fun r _ h => h
    | cons b bs ih => exact fun r hg h => ih _ hg (hg r b h)
  have start : ∀ e ∈ ({ outputAsJSON := f.json } : RState).events, ok e = true := by simp
  have hfind : ∀ e ∈ (findAllLockfiles env { outputAsJSON := f.json } f.args f.parseAs).1.events, ok e = true := by
    unfold findAllLockfiles
    split
    · exact start
    · have : ∀ acc : RState × List Str × Bool, (∀ e ∈ acc.1.events, ok e = true) →
          ∀ e ∈ (f.args.foldl (findStep env f.parseAs) acc).1.events, ok e = true := by
        induction f.args with
        | nil => exact fun _ h => h
        | cons a as ih =>
          intro acc h
          rw [List.foldl_cons]
          apply ih
          unfold findStep
          dsimp only
          generalize findLockfiles env (splitParseAs a).2 _ = res
          by_cases hr : res.2 = true
          · rw [if_pos hr]; exact pe _ _ rfl h
          · rw [if_neg hr]; exact h
      exact this _ start
  have hbody : ∀ e ∈ (runBody S env f).r.events, ok e = true := by
    unfold runBody
    dsimp only
    split
    · exact pt _ _ start
    split
    · exact pf _ _ _ (fun r b h => pt r _ h) (pt _ _ start)
    split
    · exact pf _ _ _ (fun r b h => pe r _ rfl h) (pe _ _ rfl start)
    generalize findAllLockfiles env { outputAsJSON := f.json } f.args f.parseAs = found at hfind
    split
    · exact pe _ _ rfl hfind
    · have hst : startConfig env f found.1 = (found.1, some ({}, false)) := by unfold startConfig; rw [if_pos hl]
      rw [hst]
      dsimp only
      have hprep : ∀ e ∈ (prepare S env f found.1 found.2.1 {} false).1.r.events, ok e = true := by
        unfold prepare loadDatabases
        dsimp only
        rw [if_pos hl, (readAll_listing (b := env) ⟨rfl, rfl, rfl, rfl⟩ S found.1 found.2.1 f.args).2]
        exact hfind
      have hloop : ∀ (files : List FileEntry) (s : LoopState), (∀ e ∈ s.r.events, ok e = true) →
          ∀ e ∈ (files.foldl (loopStep f (prepare S env f found.1 found.2.1 {} false).2.1) s).r.events, ok e = true := by
        intro files
        induction files with
        | nil => exact fun _ h => h
        | cons x xs ih =>
          intro s h
          rw [List.foldl_cons]
          apply ih
          unfold loopStep
          dsimp only
          have h0 : ∀ e ∈ (if s.i ≥ 1 then s.r.printText .blank else s.r).events, ok e = true := by
            split
            · exact pt _ _ h
            · exact h
          by_cases hx : x.err = true
          · rw [if_pos hx]; exact pe _ _ rfl h0
          · rw [if_neg hx, if_pos hl]
            exact pl _ _ (pt _ _ h0)
      have hl' := hloop (prepare S env f found.1 found.2.1 {} false).2.2 _ hprep
      have hper := loop_perConfig f hl (prepare S env f found.1 found.2.1 {} false).2.1 (prepare S env f found.1 found.2.1 {} false).2.2
        (prepare S env f found.1 found.2.1 {} false).1
      have hper0 : (prepare S env f found.1 found.2.1 {} false).1.perConfig = [] := rfl
      rw [hper0] at hper
      unfold finish writeUpdatedConfigs
      dsimp only
      rw [hper]
      cases f.updateConfigIgnores <;> exact hl'
  unfold run at he
  dsimp only at he
  split at he
  · rcases List.mem_append.1 he with he | he
    · exact hbody e he
    · rw [List.mem_singleton.1 he]
  · exact hbody e he

/-- The exit code of a listing run that gets to the lockfiles: 127 if a path cannot be opened or a lockfile cannot be read,
else 0. -/
theorem C61_exit (S : Sorter) (env : Env) (f : Flags) (hl : f.listPackages = true) (h : Started f (run S env f).events) :
    ((∃ m, .error m ∈ (run S env f).events) → (run S env f).exit = 127) ∧
    ((¬ ∃ m, .error m ∈ (run S env f).events) → (run S env f).exit = 0) := by
  have hnv : ¬ ∃ x ∈ shown (run S env f).events, Vulnerable x := by
    rintro ⟨x, hx, hv⟩
    have : ∀ x ∈ shown (run S env f).events, ∃ l, x = .lockfile l := by
      obtain ⟨p, hp⟩ := started_go S env f h
      rw [run_shown, (runBody_go S env f p hp).1]
      generalize p.2.2 = files
      generalize 0 = i
      intro x hx
      induction files generalizing i with
      | nil => cases hx
      | cons y ys ih =>
        rw [loopResults_cons] at hx
        rcases List.mem_append.1 hx with hx | hx
        · unfold resultOf at hx
          cases hy : y.err with
          | true => simp [hy] at hx
          | false => simp [hy, hl] at hx; exact ⟨_, hx⟩
        · exact ih _ hx
    obtain ⟨l, rfl⟩ := this x hx
    exact hv
  obtain ⟨h1, h2, h3, h4⟩ := C23_exit_code S env f h
  refine ⟨fun hm => ?_, fun hm => h4 hm hnv⟩
  by_cases hh : ∃ m, .error m ∈ (run S env f).events ∧ HardMsg m
  · exact h1 hh
  · exact h3 hh hnv hm

/-! ### Non-vacuity -/

/-- Same inputs, but no configs and no databases. -/
def sampleEmpty : Env := { sampleEnv with config := fun _ => .malformed, load := fun _ _ _ _ => (none, true) }

example : SameInputs sampleEnv sampleEmpty := ⟨rfl, rfl, rfl, rfl⟩
example : (run Sorter.insertion sampleEmpty { sampleFlags [g!"d"] with listPackages := true }).exit = 0 ∧
    (run Sorter.insertion sampleEmpty (sampleFlags [g!"d"])).exit = 127 := by decide +kernel

end Osv
