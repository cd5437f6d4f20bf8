import Verif.Spec.Run
/-!
# How each part of the command changes what was printed
-/
namespace Osv
open Spec

/-- Errors that decide the exit code at once. -/
def ErrMsg.isHard : ErrMsg → Bool
  | .dbLoad _ => true
  | .lockfile _ => true
  | _ => false

/-- Errors after which the program stops. -/
def ErrMsg.isStop : ErrMsg → Bool
  | .noPaths => true
  | .badParseAs _ => true
  | .badConfig _ => true
  | _ => false

def Event.isErr (p : ErrMsg → Bool) : Event → Bool
  | .error m => p m
  | _ => false

def Event.isStdout : Event → Bool
  | .text s _ => decide (s = .stdout)
  | .error _ => false
  | .result _ => true
  | .json _ => true
  | .warning _ => false

theorem Event.isStdout_iff (e : Event) : e.isStdout = true ↔ OnStdout e := by
  cases e <;> simp [Event.isStdout, OnStdout]

/-- Events that must not be there: JSON documents before the end and, with `--json`, anything on stdout. -/
def Event.isStray (j : Bool) : Event → Bool
  | .text s _ => j && decide (s = .stdout)
  | .error _ => false
  | .result _ => j
  | .json _ => true
  | .warning _ => false

theorem isStdout_of_stray (es : List Event) (h : es.any (Event.isStray true) = false) :
    es.any Event.isStdout = false := by
  rw [List.any_eq_false] at h ⊢
  intro e he
  have := h e he
  cases e <;> simpa [Event.isStray, Event.isStdout] using this

/-- What matters of a reporter. -/
structure Sum where
  json : Bool
  flag : Bool
  any : Bool
  hard : Bool
  stop : Bool
  shown : List Result
  stray : Bool

def RState.sum (r : RState) : Sum where
  json := r.outputAsJSON
  flag := r.hasErrored
  any := r.events.any (Event.isErr fun _ => true)
  hard := r.events.any (Event.isErr ErrMsg.isHard)
  stop := r.events.any (Event.isErr ErrMsg.isStop)
  shown := if r.outputAsJSON then r.results else Spec.shown r.events
  stray := r.events.any (Event.isStray r.outputAsJSON)

def Sum.err (s : Sum) (m : ErrMsg) : Sum :=
  { s with flag := true, any := true, hard := s.hard || m.isHard, stop := s.stop || m.isStop }

def Sum.res (s : Sum) (x : Result) : Sum := { s with shown := s.shown ++ [x] }

theorem shown_append (a b : List Event) : Spec.shown (a ++ b) = Spec.shown a ++ Spec.shown b := by
  simp [Spec.shown]

@[simp] theorem sum_printText (r : RState) (m : TextMsg) : (r.printText m).sum = r.sum := by
  cases h : r.outputAsJSON <;>
    simp [RState.sum, RState.printText, Event.isErr, Event.isStray, shown_append, h, Spec.shown, resultsOf]

@[simp] theorem sum_warn (r : RState) (n : Str) (b : Bool) : (r.warn n b).sum = r.sum := by
  cases b <;> cases h : r.outputAsJSON <;>
    simp [RState.sum, RState.warn, Event.isErr, Event.isStray, shown_append, h, Spec.shown, resultsOf]

@[simp] theorem sum_printError (r : RState) (m : ErrMsg) : (r.printError m).sum = r.sum.err m := by
  cases h : r.outputAsJSON <;>
    simp [RState.sum, RState.printError, Event.isErr, Event.isStray, Spec.shown, resultsOf, Sum.err, h]

@[simp] theorem sum_printResult (r : RState) (x : Result) : (r.printResult x).sum = r.sum.res x := by
  cases h : r.outputAsJSON <;>
    simp [RState.sum, RState.printResult, Event.isErr, Event.isStray, Spec.shown, resultsOf, Sum.res, h]

/-- Printing errors that do not satisfy `p` (and are soft). -/
def Sum.Soft (s s' : Sum) : Prop :=
  s'.json = s.json ∧ s'.hard = s.hard ∧ s'.stop = s.stop ∧ s'.shown = s.shown ∧ s'.stray = s.stray ∧
    (s.flag = s.any → s'.flag = s'.any) ∧ (s.any = true → s'.any = true)

theorem Sum.Soft.refl (s : Sum) : s.Soft s := ⟨rfl, rfl, rfl, rfl, rfl, id, id⟩

theorem Sum.Soft.trans {a b c : Sum} (h : a.Soft b) (h' : b.Soft c) : a.Soft c :=
  ⟨h'.1.trans h.1, h'.2.1.trans h.2.1, h'.2.2.1.trans h.2.2.1, h'.2.2.2.1.trans h.2.2.2.1,
    h'.2.2.2.2.1.trans h.2.2.2.2.1, fun x => h'.2.2.2.2.2.1 (h.2.2.2.2.2.1 x), fun x => h'.2.2.2.2.2.2 (h.2.2.2.2.2.2 x)⟩

theorem Sum.soft_err (s : Sum) (m : ErrMsg) (h : m.isHard = false) (h' : m.isStop = false) : s.Soft (s.err m) := by
  simp [Sum.Soft, Sum.err, h, h']

theorem soft_foldl {α β : Type} (g : α → β → α) (sum : α → Sum)
    (h : ∀ a b, (sum a).Soft (sum (g a b))) (l : List β) (a : α) : (sum a).Soft (sum (l.foldl g a)) := by
  induction l generalizing a with
  | nil => exact .refl _
  | cons b l ih => exact (h a b).trans (ih _)

theorem sum_foldl_printText {β : Type} (m : β → TextMsg) (l : List β) (r : RState) :
    (l.foldl (fun r b => r.printText (m b)) r).sum = r.sum := by
  induction l generalizing r with
  | nil => rfl
  | cons b l ih => rw [List.foldl_cons, ih]; simp

theorem soft_findStep (env : Env) (g : Str) (acc : RState × List Str × Bool) (arg : Str) :
    acc.1.sum.Soft (findStep env g acc arg).1.sum := by
  unfold findStep
  have h : ∀ (b : Bool) (p : Str), acc.1.sum.Soft (if b then acc.1.printError (.badPath p) else acc.1).sum := by
    intro b p
    cases b
    · exact .refl _
    · simp only [if_true, sum_printError]; exact Sum.soft_err _ _ rfl rfl
  exact h _ _

theorem soft_findAll (env : Env) (r : RState) (args : List Str) (g : Str) :
    r.sum.Soft (findAllLockfiles env r args g).1.sum := by
  unfold findAllLockfiles
  split
  · exact .refl _
  · exact soft_foldl (findStep env g) (·.1.sum) (soft_findStep env g) args (r, [], false)

theorem soft_printDropped (r : RState) (path : Str) (es : List RawDBErr) : r.sum.Soft (printDropped r path es).sum := by
  unfold printDropped
  refine soft_foldl (fun r e => RState.printError r (.invalidDatabase path e)) RState.sum (fun a b => ?_) es r
  rw [sum_printError]; exact Sum.soft_err _ _ rfl rfl

theorem soft_readStep (S : Sorter) (env : Env) (args : List Str) (cl : Bool) (s : ReadState) (p : Str) :
    s.r.sum.Soft (readStep S env args cl s p).r.sum := by
  unfold readStep
  dsimp only
  cases cl
  · simp only [Bool.false_eq_true, if_false]
    split <;> exact .refl _
  · simp only [if_true]
    split
    · exact .refl _
    · exact soft_printDropped _ _ _

theorem soft_readAll (S : Sorter) (env : Env) (r : RState) (paths args : List Str) (cl : Bool) (c : Config) :
    r.sum.Soft (readAllLockfiles S env r paths args cl c).r.sum :=
  soft_foldl (readStep S env args cl) (·.r.sum) (soft_readStep S env args cl) paths ⟨r, [c], 0, []⟩

/-- Loading databases: nothing changes but errors, which are hard and set the flag. -/
theorem sum_loadFold (env : Env) (f : Flags) (names : List Str) (cs : List DBConfig) (acc : RState × List DB × Bool) :
    let res := cs.foldl (loadStep env f names) acc
    res.1.sum.json = acc.1.sum.json ∧ res.1.sum.stop = acc.1.sum.stop ∧ res.1.sum.shown = acc.1.sum.shown ∧
      res.1.sum.stray = acc.1.sum.stray ∧ (acc.1.sum.flag = acc.1.sum.any → res.1.sum.flag = res.1.sum.any) ∧
      (acc.1.sum.hard = acc.2.2 → res.1.sum.hard = res.2.2) := by
  induction cs generalizing acc with
  | nil => exact ⟨rfl, rfl, rfl, rfl, id, id⟩
  | cons c cs ih =>
    have h := ih (loadStep env f names acc c)
    rw [List.foldl_cons]
    dsimp only at h ⊢
    have hs : (loadStep env f names acc c).1.sum.json = acc.1.sum.json ∧
        (loadStep env f names acc c).1.sum.stop = acc.1.sum.stop ∧
        (loadStep env f names acc c).1.sum.shown = acc.1.sum.shown ∧
        (loadStep env f names acc c).1.sum.stray = acc.1.sum.stray ∧
        (acc.1.sum.flag = acc.1.sum.any → (loadStep env f names acc c).1.sum.flag = (loadStep env f names acc c).1.sum.any) ∧
        (acc.1.sum.hard = acc.2.2 → (loadStep env f names acc c).1.sum.hard = (loadStep env f names acc c).2.2) := by
      unfold loadStep
      dsimp only
      split
      · simp only [sum_printError, sum_warn, sum_printText]
        simp [Sum.err, ErrMsg.isHard, ErrMsg.isStop]
      · simp
    obtain ⟨h1, h2, h3, h4, h5, h6⟩ := h
    obtain ⟨s1, s2, s3, s4, s5, s6⟩ := hs
    exact ⟨h1.trans s1, h2.trans s2, h3.trans s3, h4.trans s4, fun x => h5 (s5 x), fun x => h6 (s6 x)⟩

theorem sum_loadDatabases (env : Env) (f : Flags) (r : RState) (cs : List DBConfig) (names : List Str)
    (hh : r.sum.hard = false) :
    let res := loadDatabases env f r cs names
    res.1.sum.json = r.sum.json ∧ res.1.sum.stop = r.sum.stop ∧ res.1.sum.shown = r.sum.shown ∧
      res.1.sum.stray = r.sum.stray ∧ (r.sum.flag = r.sum.any → res.1.sum.flag = res.1.sum.any) ∧
      res.1.sum.hard = res.2.2 := by
  unfold loadDatabases
  split
  · exact ⟨rfl, rfl, rfl, rfl, id, hh⟩
  · have h := sum_loadFold env f names cs (r.printText .loadedHeader, [], false)
    dsimp only at h ⊢
    simp only [sum_printText] at h ⊢
    exact ⟨h.1, h.2.1, h.2.2.1, h.2.2.2.1, h.2.2.2.2.1, h.2.2.2.2.2 hh⟩

theorem soft_checkAll (n : Nat) (lockf : Lockfile) (dbs : List DB) (r : RState) :
    r.sum.Soft (checkAll n lockf dbs r).1.sum := by
  unfold checkAll
  refine soft_foldl (checkStep n lockf) (·.1.sum) (fun a b => ?_) dbs (r, [])
  unfold checkStep
  dsimp only
  split
  · rw [sum_printError, sum_warn]; exact Sum.soft_err _ _ rfl rfl
  · rw [sum_warn]; exact .refl _

theorem sum_printUsingConfig (f : Flags) (c : Config) (r : RState) : (printUsingConfig f c r).sum = r.sum := by
  unfold printUsingConfig; split <;> simp

theorem soft_writeUpdated (env : Env) (r : RState) (per : SMap (List Str)) :
    r.sum.Soft (writeUpdatedConfigs env r per).1.sum := by
  unfold writeUpdatedConfigs
  have h : ∀ r0 : RState, r0.sum = r.sum → r.sum.Soft
      (List.foldl (fun (acc : RState × (Str → ConfigFile)) (e : Str × List Str) =>
        let ignores := newIgnores e.2
        let res := updateWithIgnores acc.2 e.1 ignores (env.update e.1)
        (if res.2 then acc.1.printText (.updated e.1 ignores.length) else acc.1.printError (.updateConfig e.1),
          res.1)) (r0, env.config) per).1.sum := by
    intro r0 h0
    rw [← h0]
    refine soft_foldl (α := RState × (Str → ConfigFile)) _ (·.1.sum) (fun a b => ?_) per (r0, env.config)
    dsimp only
    split
    · rw [sum_printText]; exact .refl _
    · rw [sum_printError]; exact Sum.soft_err _ _ rfl rfl
  dsimp only at h ⊢
  apply h
  split <;> simp


theorem foldl_count {α : Type} (g : α → Nat) (l : List α) (n : Nat) :
    l.foldl (fun n p => n + g p) n = n + (l.map g).sum := by
  induction l generalizing n with
  | nil => simp
  | cons a l ih => simp [ih, Nat.add_assoc]

theorem hasKnown_iff (r : Report) : r.hasKnown = true ↔ ∃ p ∈ r.packages, ∃ v, v ∈ p.vulnerabilities := by
  unfold Report.hasKnown Report.countKnown
  rw [foldl_count]
  simp only [gt_iff_lt, decide_eq_true_eq, Nat.zero_add]
  induction r.packages with
  | nil => simp
  | cons p l ih =>
    simp only [List.map_cons, List.sum_cons, List.mem_cons, exists_eq_or_imp]
    constructor
    · intro h
      cases hv : p.vulnerabilities with
      | nil => rw [hv] at h; exact .inr (ih.1 (by simpa using h))
      | cons v vs => exact .inl ⟨v, by simp⟩
    · rintro (⟨v, hv⟩ | h)
      · have := List.length_pos_of_mem hv; omega
      · have := ih.2 h; omega

def Result.vuln : Result → Bool
  | .lockfile _ => false
  | .report r => r.hasKnown

theorem Result.vuln_iff (x : Result) : x.vuln = true ↔ Vulnerable x := by
  cases x with
  | lockfile l => simp [Result.vuln, Vulnerable]
  | report r => exact hasKnown_iff r

/-- Exit code of the loop. -/
def exitOf (hard : Bool) (shown : List Result) : Nat :=
  if hard then 127 else if shown.any Result.vuln then 1 else 0

/-- Invariant of the loop over the lockfiles. -/
structure LoopInv (j h0 a0 : Bool) (pre : List Result) (done : List FileEntry) (s : LoopState) : Prop where
  json : s.r.sum.json = j
  stop : s.r.sum.stop = false
  stray : s.r.sum.stray = false
  flag : s.r.sum.flag = s.r.sum.any
  exit : s.exit = exitOf s.r.sum.hard s.r.sum.shown
  shown : s.r.sum.shown.map lockfileOf = pre.map lockfileOf ++ (done.filter fun x => !x.err).map (·.lockf)
  hard : s.r.sum.hard = (h0 || done.any (·.err))
  any : a0 = true → s.r.sum.any = true

theorem checkLockfile_lockfile (n : Nat) (dbs : List DB) (r : RState) (l : Lockfile) (ig : List Str) :
    (checkLockfile n dbs r l ig).2.lockfile = l := rfl

theorem loopInv_step (f : Flags) (dbs : List DB) (j h0 a0 : Bool) (pre : List Result) (done : List FileEntry)
    (s : LoopState) (x : FileEntry) (h : LoopInv j h0 a0 pre done s) :
    LoopInv j h0 a0 pre (done ++ [x]) (loopStep f dbs s x) := by
  obtain ⟨h1, h2, h3, h4, h5, h6, h7, h8⟩ := h
  have hb : (if s.i ≥ 1 then s.r.printText .blank else s.r).sum = s.r.sum := by split <;> simp
  unfold loopStep
  generalize (if s.i ≥ 1 then s.r.printText .blank else s.r) = r0 at hb
  dsimp only
  cases he : x.err with
  | true =>
    simp only [if_true]
    constructor <;>
      simp [hb, Sum.err, h1, h2, h3, h4, h6, exitOf, ErrMsg.isHard, ErrMsg.isStop, List.filter_append, he]
  | false =>
    simp only [Bool.false_eq_true, if_false]
    cases hl : f.listPackages with
    | true =>
      simp only [if_true]
      constructor
      · simp [hb, Sum.res, h1]
      · simp [hb, Sum.res, h2]
      · simp [hb, Sum.res, h3]
      · simp [hb, Sum.res, h4]
      · simp [hb, Sum.res, h5, exitOf, Result.vuln]
      · simp [hb, Sum.res, h6, lockfileOf, List.filter_append, he]
      · simp [hb, Sum.res, h7, he]
      · simpa [hb, Sum.res] using h8
    | false =>
      simp only [Bool.false_eq_true, if_false]
      generalize hc : (if f.noConfigIgnores = true then _ else _ : Config) = c
      have hr : ((forConfigs dbs c.databases).foldl (fun r db => r.printText (.usingDb db.name db.info))
          (printUsingConfig f c (r0.printText (.found x.lockf.filePath x.lockf.packages.length)))).sum = s.r.sum := by
        rw [sum_foldl_printText (fun db : DB => .usingDb db.name db.info), sum_printUsingConfig]; simp [hb]
      generalize hr1 : ((forConfigs dbs c.databases).foldl (fun r db => r.printText (.usingDb db.name db.info))
          (printUsingConfig f c (r0.printText (.found x.lockf.filePath x.lockf.packages.length)))) = r1 at hr
      have hs := soft_checkAll s.i x.lockf (forConfigs dbs c.databases) (r1.printText .blank)
      have hlf := checkLockfile_lockfile s.i (forConfigs dbs c.databases) (r1.printText .blank) x.lockf (ignoresFor f c)
      have hfst : (checkLockfile s.i (forConfigs dbs c.databases) (r1.printText .blank) x.lockf (ignoresFor f c)).1 =
        (checkAll s.i x.lockf (forConfigs dbs c.databases) (r1.printText .blank)).1 := rfl
      generalize checkLockfile s.i (forConfigs dbs c.databases) (r1.printText .blank) x.lockf (ignoresFor f c) = res at hlf hfst
      rw [← hfst, sum_printText, hr] at hs
      obtain ⟨s1, s2, s3, s4, s5, s6, s7⟩ := hs
      constructor
      · simp [Sum.res, s1, h1]
      · simp [Sum.res, s3, h2]
      · simp [Sum.res, s5, h3]
      · simp [Sum.res, s6 h4]
      · simp only [sum_printResult, Sum.res, s2, s4, h5, exitOf, List.any_append, List.any_cons, List.any_nil,
          Result.vuln]
        cases s.r.sum.hard <;> cases s.r.sum.shown.any Result.vuln <;> cases res.2.hasKnown <;> simp
      · simp [Sum.res, s4, h6, lockfileOf, List.filter_append, he, hlf]
      · simp [Sum.res, s2, h7, he]
      · simpa [Sum.res] using fun x => s7 (h8 x)

theorem loopInv_foldl (f : Flags) (dbs : List DB) (j h0 a0 : Bool) (pre : List Result) (todo done : List FileEntry)
    (s : LoopState) (h : LoopInv j h0 a0 pre done s) :
    LoopInv j h0 a0 pre (done ++ todo) (todo.foldl (loopStep f dbs) s) := by
  induction todo generalizing done s with
  | nil => simpa using h
  | cons x todo ih =>
    have := ih (done ++ [x]) _ (loopInv_step f dbs j h0 a0 pre done s x h)
    simpa using this

/-- The databases that are loaded. -/
def neededConfigs (env : Env) (f : Flags) (rs : ReadState) : List DBConfig :=
  uniqueDBConfigs ((getConfigs rs.files (adjustExtraDatabases env f rs.files rs.cells)).map (·.databases))

/-- Some database cannot be loaded. -/
def someLoadFails (env : Env) (f : Flags) (rs : ReadState) : Bool :=
  !f.listPackages && (neededConfigs env f rs).any fun c =>
    (env.load c f.offline f.batchSize (allPackageNames env rs.files)).1.isNone

theorem loadFold_flag (env : Env) (f : Flags) (names : List Str) (cs : List DBConfig) (acc : RState × List DB × Bool) :
    (cs.foldl (loadStep env f names) acc).2.2 =
      (acc.2.2 || cs.any fun c => (env.load c f.offline f.batchSize names).1.isNone) := by
  induction cs generalizing acc with
  | nil => simp
  | cons c cs ih =>
    rw [List.foldl_cons, ih]
    unfold loadStep
    dsimp only
    split <;> rename_i h <;> simp [h]

theorem loadDatabases_flag (env : Env) (f : Flags) (r : RState) (cs : List DBConfig) (names : List Str) :
    (loadDatabases env f r cs names).2.2 =
      (!f.listPackages && cs.any fun c => (env.load c f.offline f.batchSize names).1.isNone) := by
  unfold loadDatabases
  cases f.listPackages
  · simp [loadFold_flag]
  · simp

theorem soft_any_load (env : Env) (f : Flags) (r : RState) (cs : List DBConfig) (names : List Str)
    (h : r.sum.any = true) : (loadDatabases env f r cs names).1.sum.any = true := by
  unfold loadDatabases
  split
  · exact h
  · suffices hh : ∀ acc : RState × List DB × Bool, acc.1.sum.any = true →
        (cs.foldl (loadStep env f names) acc).1.sum.any = true by
      have := hh (r.printText .loadedHeader, [], false) (by simpa using h)
      simpa using this
    clear h
    induction cs with
    | nil => exact fun _ h => h
    | cons c cs ih =>
      intro acc h
      rw [List.foldl_cons]
      apply ih
      unfold loadStep
      dsimp only
      split
      · simp [Sum.err]
      · simpa using h

theorem loopInv_prepare (S : Sorter) (env : Env) (f : Flags) (r : RState) (paths : List Str) (c : Config) (cl : Bool)
    (hstop : r.sum.stop = false) (hstray : r.sum.stray = false) (hflag : r.sum.flag = r.sum.any)
    (hhard : r.sum.hard = false) (hshown : r.sum.shown = []) :
    LoopInv r.sum.json (someLoadFails env f (readAllLockfiles S env r paths f.args cl c)) r.sum.any [] []
      (prepare S env f r paths c cl).1 := by
  obtain ⟨s1, s2, s3, s4, s5, s6, s7⟩ := soft_readAll S env r paths f.args cl c
  unfold prepare
  dsimp only
  generalize readAllLockfiles S env r paths f.args cl c = rs at *
  have h := sum_loadDatabases env f rs.r
    (uniqueDBConfigs ((getConfigs rs.files (adjustExtraDatabases env f rs.files rs.cells)).map (·.databases)))
    (allPackageNames env rs.files) (s2.trans hhard)
  dsimp only at h
  have hfl : (loadDatabases env f rs.r
      (uniqueDBConfigs ((getConfigs rs.files (adjustExtraDatabases env f rs.files rs.cells)).map (·.databases)))
      (allPackageNames env rs.files)).2.2 = someLoadFails env f rs := loadDatabases_flag _ _ _ _ _
  have hany := soft_any_load env f rs.r
    (uniqueDBConfigs ((getConfigs rs.files (adjustExtraDatabases env f rs.files rs.cells)).map (·.databases)))
    (allPackageNames env rs.files)
  generalize loadDatabases env f rs.r _ _ = ld at *
  obtain ⟨h1, h2, h3, h4, h5, h6⟩ := h
  have hsh : ld.1.sum.shown = [] := by rw [h3, s4, hshown]
  constructor
  · exact h1.trans s1
  · exact (h2.trans s3).trans hstop
  · exact (h4.trans s5).trans hstray
  · exact h5 (s6 hflag)
  · show (if ld.2.2 then 127 else 0) = exitOf ld.1.sum.hard ld.1.sum.shown
    rw [h6, hsh]; cases ld.2.2 <;> rfl
  · show ld.1.sum.shown.map lockfileOf = _
    rw [hsh]; rfl
  · show ld.1.sum.hard = _
    rw [h6, hfl]; simp
  · exact fun x => hany (s7 x)

/-- The state before the JSON document is printed. -/
structure FinalInv (j h0 a0 : Bool) (files : List FileEntry) (x : Final) : Prop where
  json : x.r.sum.json = j
  stop : x.r.sum.stop = false
  stray : x.r.sum.stray = false
  flag : x.r.sum.flag = x.r.sum.any
  exit : x.exit = if exitOf x.r.sum.hard x.r.sum.shown = 0 ∧ x.r.sum.any = true then 127
    else exitOf x.r.sum.hard x.r.sum.shown
  shown : x.r.sum.shown.map lockfileOf = (files.filter fun x => !x.err).map (·.lockf)
  hard : x.r.sum.hard = (h0 || files.any (·.err))
  any : a0 = true → x.r.sum.any = true

theorem finalInv (env : Env) (f : Flags) (j h0 a0 : Bool) (files : List FileEntry) (s : LoopState)
    (h : LoopInv j h0 a0 [] files s) : FinalInv j h0 a0 files (finish env f s) := by
  obtain ⟨h1, h2, h3, h4, h5, h6, h7, h8⟩ := h
  have hs : s.r.sum.Soft (finish env f s).r.sum := by
    unfold finish
    dsimp only
    split
    · exact soft_writeUpdated env s.r s.perConfig
    · exact .refl _
  have he : (finish env f s).exit = if (finish env f s).r.hasErrored && decide (s.exit = 0) then 127 else s.exit := rfl
  generalize finish env f s = x at *
  obtain ⟨s1, s2, s3, s4, s5, s6, s7⟩ := hs
  have hfl : x.r.hasErrored = x.r.sum.any := s6 h4
  refine ⟨s1.trans h1, s3.trans h2, s5.trans h3, s6 h4, ?_, by rw [s4, h6]; simp, s2.trans h7, fun x => s7 (h8 x)⟩
  rw [he, hfl, h5, s2, s4]
  by_cases h0 : exitOf s.r.sum.hard s.r.sum.shown = 0 <;> cases x.r.sum.any <;> simp [h0]

/-- The lockfiles read in a run, if it gets that far. -/
def readOf (S : Sorter) (env : Env) (f : Flags) : ReadState :=
  let found := findAllLockfiles env { outputAsJSON := f.json } f.args f.parseAs
  match startConfig env f found.1 with
  | (r, none) => ⟨r, [], 0, []⟩
  | (r, some (config, checkLocal)) => readAllLockfiles S env r found.2.1 f.args checkLocal config

/-- Some path given as argument cannot be opened. -/
def someBadPath (env : Env) (f : Flags) : Bool :=
  decide (f.parseAs ≠ csvRowName) && f.args.any fun a => decide (env.path (splitParseAs a).2 = .cannotOpen)

theorem findAll_any (env : Env) (r : RState) (args : List Str) (g : Str) (hg : g ≠ csvRowName)
    (h : ∃ a ∈ args, env.path (splitParseAs a).2 = .cannotOpen) :
    (findAllLockfiles env r args g).1.sum.any = true := by
  unfold findAllLockfiles
  rw [if_neg hg]
  suffices hh : ∀ acc : RState × List Str × Bool,
      (acc.1.sum.any = true ∨ ∃ a ∈ args, env.path (splitParseAs a).2 = .cannotOpen) →
      (args.foldl (findStep env g) acc).1.sum.any = true from hh _ (.inr h)
  clear h
  induction args with
  | nil => intro acc h; simpa using h
  | cons a args ih =>
    intro acc h
    rw [List.foldl_cons]
    apply ih
    rcases h with h | ⟨a', ha', h⟩
    · exact .inl ((soft_findStep env g acc a).2.2.2.2.2.2 h)
    · rcases List.mem_cons.1 ha' with rfl | ha'
      · left
        have : ∀ p, (findLockfiles env (splitParseAs a').2 p).2 = true := by intro p; simp [findLockfiles, h]
        simp [findStep, this, Sum.err]
      · exact .inr ⟨a', ha', h⟩

theorem sum_start (j : Bool) : ({ outputAsJSON := j } : RState).sum = ⟨j, false, false, false, false, [], false⟩ := by
  cases j <;> rfl

/-- What happens in a run. -/
inductive RunCase (S : Sorter) (env : Env) (f : Flags) (x : Final) : Prop where
  | info (h : f.printVersion = true ∨ f.listEcosystems = true) (exit : x.exit = 0)
      (sum : x.r.sum = ⟨f.json, false, false, false, false, [], false⟩)
  | stopped (h : f.printVersion = false ∧ f.listEcosystems = false) (exit : x.exit = 127 ∨ x.exit = 128 ∧ badParseAs f = false ∧
        (findAllLockfiles env { outputAsJSON := f.json } f.args f.parseAs).2.1.length = 0)
      (json : x.r.sum.json = f.json) (stop : x.r.sum.stop = true)
      (shown : x.r.sum.shown = []) (stray : x.r.sum.stray = false) (flag : x.r.sum.flag = x.r.sum.any)
  | normal (h : f.printVersion = false ∧ f.listEcosystems = false) (inv : FinalInv f.json (someLoadFails env f (readOf S env f)) (someBadPath env f) (readOf S env f).files x)

theorem err_stop (s : Sum) (m : ErrMsg) (h : m.isStop = true) : (s.err m).stop = true := by simp [Sum.err, h]

theorem sum_printParsers (r : RState) : r.sum.Soft (printParsers r).sum := by
  unfold printParsers
  refine soft_foldl (fun r p => RState.printError r (.parserName p)) RState.sum (fun a b => ?_) _ r
  rw [sum_printError]; exact Sum.soft_err _ _ rfl rfl

theorem runCase (S : Sorter) (env : Env) (f : Flags) : RunCase S env f (runBody S env f) := by
  have h0 := sum_start f.json
  unfold runBody
  cases hv : f.printVersion with
  | true => exact .info (.inl hv) rfl (by simp [h0])
  | false =>
  cases hl : f.listEcosystems with
  | true =>
    refine .info (.inr hl) rfl ?_
    simp only [Bool.false_eq_true, if_false, if_true]
    unfold printKnownEcosystems
    rw [sum_foldl_printText (fun e => .ecosystem (some e))]; simp [h0]
  | false =>
  simp only [Bool.false_eq_true, if_false]
  cases hb : badParseAs f with
  | true =>
    simp only [if_true]
    obtain ⟨s1, s2, s3, s4, s5, s6, s7⟩ := sum_printParsers (RState.printError { outputAsJSON := f.json } (.badParseAs f.parseAs))
    rw [sum_printError, h0] at s1 s2 s3 s4 s5 s6 s7
    exact .stopped ⟨hv, hl⟩ (.inl rfl) s1 s3 s4 s5 (s6 rfl)
  | false =>
  simp only [Bool.false_eq_true, if_false]
  have hf := soft_findAll env { outputAsJSON := f.json } f.args f.parseAs
  have hfiles : readOf S env f = match startConfig env f (findAllLockfiles env { outputAsJSON := f.json } f.args f.parseAs).1 with
    | (r, none) => ⟨r, [], 0, []⟩
    | (r, some (config, checkLocal)) => readAllLockfiles S env r (findAllLockfiles env { outputAsJSON := f.json } f.args f.parseAs).2.1 f.args checkLocal config := rfl
  have hbad : someBadPath env f = true →
      (findAllLockfiles env { outputAsJSON := f.json } f.args f.parseAs).1.sum.any = true := by
    intro h
    simp only [someBadPath, Bool.and_eq_true, decide_eq_true_eq, List.any_eq_true] at h
    exact findAll_any env _ _ _ h.1 h.2
  generalize hfound : findAllLockfiles env { outputAsJSON := f.json } f.args f.parseAs = found at *
  rw [h0] at hf
  split
  · obtain ⟨s1, s2, s3, s4, s5, s6, s7⟩ := hf
    refine .stopped ⟨hv, hl⟩ ?_ ?_ ?_ ?_ ?_ ?_
    · rename_i hz
      rw [hfound]; dsimp only; split <;> simp [hb, hz]
    · simp [Sum.err, s1]
    · simp [Sum.err, ErrMsg.isStop]
    · simp [Sum.err, s4]
    · simp [Sum.err, s5]
    · simp [Sum.err]
  · have hsc : (startConfig env f found.1).2 = none ∧
        (∃ e, (startConfig env f found.1).1.sum = found.1.sum.err (.badConfig e)) ∨
        found.1.sum.Soft (startConfig env f found.1).1.sum ∧ ∃ p, (startConfig env f found.1).2 = some p := by
      unfold startConfig
      split
      · exact .inr ⟨.refl _, _, rfl⟩
      · split
        · split
          · exact .inl ⟨rfl, _, sum_printError _ _⟩
          · exact .inr ⟨soft_printDropped _ _ _, _, rfl⟩
        · exact .inr ⟨.refl _, _, rfl⟩
    rcases hst : startConfig env f found.1 with ⟨r, o⟩
    rw [hst] at hsc hfiles
    obtain ⟨s1, s2, s3, s4, s5, s6, s7⟩ := hf
    rcases hsc with ⟨hn, e, he⟩ | ⟨hsoft, p, hp⟩
    · dsimp only at hn he ⊢
      subst hn
      refine .stopped ⟨hv, hl⟩ (.inl rfl) ?_ ?_ ?_ ?_ ?_
      · simp [he, Sum.err, s1]
      · simp [he, Sum.err, ErrMsg.isStop]
      · simp [he, Sum.err, s4]
      · simp [he, Sum.err, s5]
      · simp [he, Sum.err]
    · dsimp only at hp hsoft hfiles ⊢
      subst hp
      obtain ⟨c, cl⟩ := p
      dsimp only at hfiles ⊢
      obtain ⟨t1, t2, t3, t4, t5, t6, t7⟩ := hsoft
      refine .normal ⟨hv, hl⟩ ?_
      rw [hfiles]
      have hj : r.sum.json = f.json := t1.trans s1
      rw [← hj]
      refine finalInv env f _ _ _ _ _ ?_
      have hinv := loopInv_prepare S env f r found.2.1 c cl (t3.trans s3) (t5.trans s5) (t6 (s6 rfl)) (t2.trans s2) (t4.trans s4)
      have := loopInv_foldl f (prepare S env f r found.2.1 c cl).2.1 _ _ _ []
        (prepare S env f r found.2.1 c cl).2.2 [] (prepare S env f r found.2.1 c cl).1
        hinv
      obtain ⟨a1, a2, a3, a4, a5, a6, a7, a8⟩ := this
      exact ⟨a1, a2, a3, a4, a5, a6, a7, fun x => a8 (t7 (hbad x))⟩

theorem runCase_json {S : Sorter} {env : Env} {f : Flags} {x : Final} (h : RunCase S env f x) :
    x.r.sum.json = f.json ∧ x.r.sum.stray = false := by
  cases h with
  | info _ _ h => rw [h]; exact ⟨rfl, rfl⟩
  | stopped _ _ h1 _ _ h2 _ => exact ⟨h1, h2⟩
  | normal _ h => exact ⟨h.json, h.stray⟩

theorem run_error_iff (S : Sorter) (env : Env) (f : Flags) (m : ErrMsg) :
    .error m ∈ (run S env f).events ↔ .error m ∈ (runBody S env f).r.events := by
  unfold run
  cases f.json <;> simp [RState.printJSON]

theorem any_isErr (p : ErrMsg → Bool) (es : List Event) :
    es.any (Event.isErr p) = true ↔ ∃ m, .error m ∈ es ∧ p m = true := by
  rw [List.any_eq_true]
  constructor
  · rintro ⟨e, he, h⟩
    cases e with
    | error m => exact ⟨m, he, h⟩
    | _ => cases h
  · rintro ⟨m, hm, h⟩; exact ⟨_, hm, h⟩

theorem isHard_iff (m : ErrMsg) : m.isHard = true ↔ HardMsg m := by
  cases m <;> simp [ErrMsg.isHard, HardMsg]

theorem sum_hard_iff (r : RState) : r.sum.hard = true ↔ ∃ m, .error m ∈ r.events ∧ HardMsg m := by
  show r.events.any _ = true ↔ _
  rw [any_isErr]; simp only [isHard_iff]

theorem sum_any_iff (r : RState) : r.sum.any = true ↔ ∃ m, .error m ∈ r.events := by
  show r.events.any _ = true ↔ _
  rw [any_isErr]; simp

theorem shown_eq_nil_of_not_stdout (es : List Event) (h : es.any Event.isStdout = false) : Spec.shown es = [] := by
  induction es with
  | nil => rfl
  | cons e es ih =>
    simp only [List.any_cons, Bool.or_eq_false_iff] at h
    have := ih h.2
    cases e with
    | text s m => simpa [Spec.shown, resultsOf] using this
    | error m => simpa [Spec.shown, resultsOf] using this
    | warning n => simpa [Spec.shown, resultsOf] using this
    | result x => simp [Event.isStdout] at h
    | json x => simp [Event.isStdout] at h

/-- The results shown in a run. -/
theorem run_shown (S : Sorter) (env : Env) (f : Flags) :
    Spec.shown (run S env f).events = (runBody S env f).r.sum.shown := by
  obtain ⟨hj, hs⟩ := runCase_json (runCase S env f)
  unfold run
  generalize runBody S env f = x at *
  have hj' : x.r.outputAsJSON = f.json := hj
  have hs' : x.r.events.any (Event.isStray x.r.outputAsJSON) = false := hs
  show _ = if x.r.outputAsJSON then x.r.results else Spec.shown x.r.events
  cases hf : f.json with
  | false => rw [hf] at hj'; simp [hj']
  | true =>
    rw [hf] at hj'
    rw [hj'] at hs'
    have hs' := isStdout_of_stray _ hs'
    simp only [hj', if_true, RState.printJSON, shown_append, shown_eq_nil_of_not_stdout _ hs', List.nil_append]
    simp [Spec.shown, resultsOf]

end Osv
