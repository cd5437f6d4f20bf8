import Verif.Spec.Output
import Verif.Lemmas.RunFun
import Verif.Lemmas.Databases
/-! # How each part of the command changes the text on stdout -/
namespace Osv.Output
open Osv Spec Str

/-- What is on stdout, without the lines about updated configs. -/
def out (W : Words) (es : List Event) : Str := (writtenTo W .stdout (es.filter fun e => !e.isUpdate)).flatten

theorem out_append (W : Words) (a b : List Event) : out W (a ++ b) = out W a ++ out W b := by
  simp [out, writtenTo]

theorem out_text (W : Words) (r : RState) (hj : r.outputAsJSON = false) (m : TextMsg) (hm : ∀ p n, m ≠ .updated p n) :
    out W (r.printText m).events = out W r.events ++ m.text W := by
  have : Event.isUpdate (.text .stdout m) = false := by
    cases m <;> first | rfl | exact absurd rfl (hm _ _)
  simp only [RState.printText, hj, out_append]
  simp [out, writtenTo, this, Event.written]

theorem out_error (W : Words) (r : RState) (m : ErrMsg) : out W (r.printError m).events = out W r.events := by
  simp only [RState.printError, out_append]
  cases m <;> simp [out, writtenTo, Event.isUpdate, Event.written]

theorem out_warn (W : Words) (r : RState) (n : Str) (b : Bool) : out W (r.warn n b).events = out W r.events := by
  cases b
  · rfl
  · simp [RState.warn, out, writtenTo, Event.isUpdate, Event.written]

theorem out_result (W : Words) (r : RState) (hj : r.outputAsJSON = false) (x : Result) :
    out W (r.printResult x).events = out W r.events ++ x.text W := by
  simp [RState.printResult, hj, out, writtenTo, Event.isUpdate, Event.written]

theorem json_text (r : RState) (m : TextMsg) : (r.printText m).outputAsJSON = r.outputAsJSON := rfl
theorem json_error (r : RState) (m : ErrMsg) : (r.printError m).outputAsJSON = r.outputAsJSON := rfl
theorem json_warn (r : RState) (n : Str) (b : Bool) : (r.warn n b).outputAsJSON = r.outputAsJSON := by cases b <;> rfl
theorem json_result (r : RState) (x : Result) : (r.printResult x).outputAsJSON = r.outputAsJSON := by
  unfold RState.printResult; split <;> rfl

theorem about_eq (paint : Color → Str → Str) (i : DBInfo) : describeInParens paint i = aboutDatabase paint i := by
  cases i <;> simp [describeInParens, describeDB, aboutDatabase, noun, form]

/-- Printing several messages. -/
theorem out_texts {β : Type} (W : Words) (g : β → TextMsg) (hg : ∀ b p n, g b ≠ .updated p n) (l : List β) (r : RState)
    (hj : r.outputAsJSON = false) :
    out W (l.foldl (fun r b => r.printText (g b)) r).events = out W r.events ++ (l.map fun b => (g b).text W).flatten ∧
    (l.foldl (fun r b => r.printText (g b)) r).outputAsJSON = false := by
  induction l generalizing r with
  | nil => exact ⟨by simp, hj⟩
  | cons b l ih =>
    rw [List.foldl_cons]
    obtain ⟨h1, h2⟩ := ih (r.printText (g b)) hj
    refine ⟨?_, h2⟩
    rw [h1, out_text W r hj _ (hg b)]
    simp

theorem out_checkAll (W : Words) (n : Nat) (l : Lockfile) (dbs : List DB) (acc : RState × List (List (List OSV))) :
    out W (dbs.foldl (checkStep n l) acc).1.events = out W acc.1.events ∧
    (dbs.foldl (checkStep n l) acc).1.outputAsJSON = acc.1.outputAsJSON := by
  induction dbs generalizing acc with
  | nil => exact ⟨rfl, rfl⟩
  | cons db dbs ih =>
    rw [List.foldl_cons, (ih _).1, (ih _).2]
    unfold checkStep
    dsimp only
    split
    · rw [out_error, out_warn, json_error, json_warn]; exact ⟨rfl, rfl⟩
    · rw [out_warn, json_warn]; exact ⟨rfl, rfl⟩

/-- The part of the output about a file. -/
def section_ (W : Words) (f : Flags) (dbs : List DB) (cells : List Config) (i : Nat) (x : FileEntry) : Str :=
  if x.err then []
  else if f.listPackages then fileLine W.paint x.lockf ++ x.lockf.text
  else fileLine W.paint x.lockf ++ configLine W.paint f.noConfigIgnores (cells.getD x.config {}) ++
    ((forConfigs dbs (cells.getD x.config {}).databases).map (usingLine W.paint)).flatten ++ g!"\n" ++
    (reportOf f dbs (cells.getD x.config {}) i x.lockf).text W.paint W.describe

theorem text_found (W : Words) (l : Lockfile) : (TextMsg.found l.filePath l.packages.length).text W = fileLine W.paint l := by
  simp only [TextMsg.text, fileLine, form, noun]
  split <;> simp

theorem text_using (W : Words) (db : DB) : (TextMsg.usingDb db.name db.info).text W = usingLine W.paint db := by
  simp only [TextMsg.text, usingLine, about_eq]

theorem out_usingConfig (W : Words) (f : Flags) (c c' : Config) (h : CfgSame f c c') (r : RState) (hj : r.outputAsJSON = false) :
    out W (printUsingConfig f c r).events = out W r.events ++ configLine W.paint f.noConfigIgnores c' ∧
    (printUsingConfig f c r).outputAsJSON = false := by
  obtain ⟨h1, -, h3⟩ := h
  unfold printUsingConfig configLine
  rw [← h1]
  by_cases hp : c.filePath = []
  · simp [hp, hj]
  · rw [if_pos hp, if_neg hp]
    refine ⟨?_, hj⟩
    rw [out_text W r hj _ (by intros; simp)]
    cases hn : f.noConfigIgnores with
    | true => simp [TextMsg.text]
    | false =>
      rw [← h3 hn]
      simp only [TextMsg.text, form, noun, Bool.false_eq_true, if_false]
      split <;> simp

theorem out_loopStep (W : Words) (f : Flags) (dbs : List DB) (cells : List Config) (s : LoopState) (x : FileEntry)
    (h : CellsSame f s.cells cells) (hj : s.r.outputAsJSON = false) :
    out W (loopStep f dbs s x).r.events =
      out W s.r.events ++ (if s.i ≥ 1 then g!"\n" else []) ++ section_ W f dbs cells s.i x ∧
    (loopStep f dbs s x).r.outputAsJSON = false := by
  have hb : out W (if s.i ≥ 1 then s.r.printText .blank else s.r).events = out W s.r.events ++ (if s.i ≥ 1 then g!"\n" else []) ∧
      (if s.i ≥ 1 then s.r.printText .blank else s.r).outputAsJSON = false := by
    split
    · exact ⟨out_text W _ hj _ (by intros; simp), hj⟩
    · exact ⟨by simp, hj⟩
  rw [← hb.1]
  have hj0 := hb.2
  clear hb
  unfold loopStep section_
  generalize (if s.i ≥ 1 then s.r.printText .blank else s.r) = r0 at *
  cases he : x.err with
  | true =>
    simp only [if_true]
    rw [out_error]
    exact ⟨by simp, hj0⟩
  | false =>
    simp only [Bool.false_eq_true, if_false]
    have hf : out W (r0.printText (.found x.lockf.filePath x.lockf.packages.length)).events =
        out W r0.events ++ fileLine W.paint x.lockf := by
      rw [out_text W _ hj0 _ (by intros; simp), text_found]
    have hj1 : (r0.printText (.found x.lockf.filePath x.lockf.packages.length)).outputAsJSON = false := hj0
    generalize r0.printText (.found x.lockf.filePath x.lockf.packages.length) = r1 at *
    cases hl : f.listPackages with
    | true =>
      simp only [if_true]
      rw [out_result W _ hj1, hf, json_result]
      exact ⟨by simp [Result.text], hj1⟩
    | false =>
      simp only [Bool.false_eq_true, if_false]
      have hsame : CfgSame f (if f.noConfigIgnores then { s.cells.getD x.config {} with ignore := [] }
          else s.cells.getD x.config {}) (cells.getD x.config {}) := by
        obtain ⟨h1, h2, h3⟩ := h x.config
        cases hn : f.noConfigIgnores with
        | true => exact ⟨h1, h2, by simp [hn]⟩
        | false => exact ⟨h1, h2, h3⟩
      generalize (if f.noConfigIgnores then { s.cells.getD x.config {} with ignore := [] }
          else s.cells.getD x.config {} : Config) = c at hsame
      obtain ⟨c1, c2⟩ := out_usingConfig W f c _ hsame r1 hj1
      generalize printUsingConfig f c r1 = r2 at *
      obtain ⟨d1, d2⟩ := out_texts W (fun db : DB => .usingDb db.name db.info) (by intros; simp) (forConfigs dbs c.databases) r2 c2
      generalize (forConfigs dbs c.databases).foldl (fun r db => r.printText (.usingDb db.name db.info)) r2 = r3 at *
      have e1 : out W (r3.printText .blank).events = out W r3.events ++ g!"\n" := out_text W _ d2 _ (by intros; simp)
      have e2 : (r3.printText .blank).outputAsJSON = false := d2
      generalize r3.printText .blank = r4 at *
      obtain ⟨k1, k2⟩ := out_checkAll W s.i x.lockf (forConfigs dbs c.databases) (r4, [])
      have hrep := checkLockfile_report s.i dbs r4 x.lockf f c
      rw [hsame.report] at hrep
      have hfst : (checkLockfile s.i (forConfigs dbs c.databases) r4 x.lockf (ignoresFor f c)).1 =
        ((forConfigs dbs c.databases).foldl (checkStep s.i x.lockf) (r4, [])).1 := rfl
      generalize checkLockfile s.i (forConfigs dbs c.databases) r4 x.lockf (ignoresFor f c) = res at *
      rw [← hfst] at k1 k2
      rw [out_result W _ (k2.trans e2), k1, hrep, json_result]
      refine ⟨?_, k2.trans e2⟩
      dsimp only
      rw [e1, d1, c1, hf, ← hsame.2.1]
      simp [text_using, Result.text]

/-- The parts about all files, the first of them being number `i`. -/
def sections (W : Words) (f : Flags) (dbs : List DB) (cells : List Config) : Nat → List FileEntry → List Str
  | _, [] => []
  | i, x :: xs => section_ W f dbs cells i x :: sections W f dbs cells (i + 1) xs

theorem out_loop (W : Words) (f : Flags) (dbs : List DB) (cells : List Config) (files : List FileEntry) (s : LoopState)
    (h : CellsSame f s.cells cells) (hj : s.r.outputAsJSON = false) :
    out W (files.foldl (loopStep f dbs) s).r.events = out W s.r.events ++
      (if s.i ≥ 1 then ((sections W f dbs cells s.i files).map fun p => g!"\n" ++ p).flatten
        else join g!"\n" (sections W f dbs cells s.i files)) ∧
    (files.foldl (loopStep f dbs) s).r.outputAsJSON = false := by
  induction files generalizing s with
  | nil => exact ⟨by simp [sections, join], hj⟩
  | cons x xs ih =>
    obtain ⟨h1, h2, -, -, -⟩ := loopStep_fun f dbs cells s x h
    obtain ⟨o1, o2⟩ := out_loopStep W f dbs cells s x h hj
    obtain ⟨i1, i2⟩ := ih (loopStep f dbs s x) h1 o2
    have h2 : (loopStep f dbs s x).i = s.i + 1 := h2
    rw [List.foldl_cons]
    refine ⟨?_, i2⟩
    have hc : s.i + 1 ≥ 1 := by omega
    rw [i1, o1, h2, if_pos hc]
    by_cases hi : s.i ≥ 1
    · simp [hi, sections]
    · simp only [hi, if_false, sections]
      have hz : s.i = 0 := by omega
      rw [hz]
      generalize hp : section_ W f dbs cells 0 x = p
      generalize sections W f dbs cells (0 + 1) xs = ps
      have : ∀ (p : Str) (ps : List Str), join g!"\n" (p :: ps) = p ++ (ps.map fun q => g!"\n" ++ q).flatten := by
        intro p ps
        induction ps generalizing p with
        | nil => simp [join]
        | cons q qs ih => simp [join, ih]
      rw [this]
      simp

theorem pkgLine_eq (p : PackageDetails) : pkgLine p = packageLine p := by
  unfold pkgLine packageLine
  by_cases h1 : p.version = [] <;> by_cases h2 : p.commit = [] <;> simp [h1, h2]

theorem lockfile_text (l : Lockfile) : l.text = packageLines l.packages := by
  have hf : ∀ (ps : List PackageDetails) (ls : List Str), ps.foldl (fun ls p => ls ++ [pkgLine p]) ls = ls ++ ps.map pkgLine := by
    intro ps
    induction ps with
    | nil => simp
    | cons p ps ih => intro ls; simp [ih]
  unfold Lockfile.text
  rw [hf, List.nil_append]
  generalize l.packages = ps
  match ps with
  | [] => rfl
  | p :: ps =>
    induction ps generalizing p with
    | nil => exact pkgLine_eq p
    | cons q qs ih =>
      show pkgLine p ++ g!"\n" ++ _ = packageLine p ++ g!"\n" ++ _
      rw [pkgLine_eq]
      exact congrArg _ (ih q)

theorem sections_spec (W : Words) (f : Flags) (dbs : List DB) (cells : List Config) (files : List FileEntry) (i : Nat) :
    Sections W f (fun x => cells.getD x.config {}) (fun c => forConfigs dbs c.databases) files (loopResults f dbs cells i files)
      (sections W f dbs cells i files) := by
  induction files generalizing i with
  | nil => exact .nil
  | cons x xs ih =>
    unfold loopResults sections resultOf section_
    cases he : x.err with
    | true => simpa using Sections.failed he (ih (i + 1))
    | false =>
      simp only [Bool.false_eq_true, if_false]
      refine .file he ?_ (ih (i + 1))
      cases hl : f.listPackages with
      | true =>
        have := IsSection.listed (W := W) (c := cells.getD x.config {}) (dbs := forConfigs dbs (cells.getD x.config {}).databases)
          (x := x) hl
        rw [← lockfile_text] at this
        exact this
      | false => exact .checked _ hl rfl

/-! ### Before the loop -/

/-- Nothing on stdout so far, in text mode, and no lines about updated configs. -/
structure Quiet (W : Words) (r : RState) : Prop where
  json : r.outputAsJSON = false
  out : out W r.events = []
  upd : r.events.filter Event.isUpdate = []

theorem Quiet.error {W : Words} {r : RState} (h : Quiet W r) (m : ErrMsg) (hm : ∀ p, m ≠ .updateConfig p) :
    Quiet W (r.printError m) := by
  refine ⟨h.json, (out_error W r m).trans h.out, ?_⟩
  simp only [RState.printError, List.filter_append, h.upd]
  cases m <;> first | rfl | exact absurd rfl (hm _)

theorem Quiet.dropped {W : Words} {r : RState} (h : Quiet W r) (p : Str) (es : List RawDBErr) : Quiet W (printDropped r p es) := by
  unfold printDropped
  induction es generalizing r with
  | nil => exact h
  | cons e es ih => exact ih (h.error _ (by intros; simp))

theorem Quiet.find {W : Words} {r : RState} (h : Quiet W r) (env : Env) (args : List Str) (g : Str) :
    Quiet W (findAllLockfiles env r args g).1 := by
  unfold findAllLockfiles
  split
  · exact h
  · have : ∀ acc : RState × List Str × Bool, Quiet W acc.1 → Quiet W (args.foldl (findStep env g) acc).1 := by
      induction args with
      | nil => exact fun _ h => h
      | cons a args ih =>
        intro acc ha
        apply ih
        unfold findStep
        dsimp only
        generalize findLockfiles env (splitParseAs a).2 _ = res
        split
        · exact ha.error _ (by intros; simp)
        · exact ha
    exact this _ h

theorem Quiet.read {W : Words} {r : RState} (h : Quiet W r) (S : Sorter) (env : Env) (paths args : List Str) (cl : Bool) (c : Config) :
    Quiet W (readAllLockfiles S env r paths args cl c).r := by
  unfold readAllLockfiles
  have : ∀ s : ReadState, Quiet W s.r → Quiet W (paths.foldl (readStep S env args cl) s).r := by
    induction paths with
    | nil => exact fun _ h => h
    | cons p paths ih =>
      intro s hs
      apply ih
      unfold readStep
      dsimp only
      split
      · split
        · exact hs
        · exact hs.dropped _ _
      · split <;> exact hs
  exact this _ h

theorem Quiet.config {W : Words} {r : RState} (h : Quiet W r) (env : Env) (f : Flags) : Quiet W (startConfig env f r).1 := by
  unfold startConfig
  split
  · exact h
  · split
    · split
      · exact h.error _ (by intros; simp)
      · exact h.dropped _ _
    · exact h

theorem upd_text (r : RState) (m : TextMsg) (hm : ∀ p n, m ≠ .updated p n) :
    (r.printText m).events.filter Event.isUpdate = r.events.filter Event.isUpdate := by
  simp only [RState.printText, List.filter_append]
  cases m <;> first | exact absurd rfl (hm _ _) | simp [Event.isUpdate]

theorem upd_error (r : RState) (m : ErrMsg) (hm : ∀ p, m ≠ .updateConfig p) :
    (r.printError m).events.filter Event.isUpdate = r.events.filter Event.isUpdate := by
  simp only [RState.printError, List.filter_append]
  cases m <;> first | exact absurd rfl (hm _) | simp [Event.isUpdate]

theorem upd_warn (r : RState) (n : Str) (b : Bool) :
    (r.warn n b).events.filter Event.isUpdate = r.events.filter Event.isUpdate := by
  cases b
  · rfl
  · simp [RState.warn, Event.isUpdate]

theorem upd_result (r : RState) (x : Result) :
    (r.printResult x).events.filter Event.isUpdate = r.events.filter Event.isUpdate := by
  unfold RState.printResult
  split
  · rfl
  · simp [Event.isUpdate]

theorem out_load (W : Words) (env : Env) (f : Flags) (names : List Str) (cs : List DBConfig) (acc : RState × List DB × Bool)
    (hj : acc.1.outputAsJSON = false) :
    let r := (cs.foldl (loadStep env f names) acc).1
    out W r.events = out W acc.1.events ++
      (cs.map fun c => databaseText W.paint c.name (env.load c f.offline f.batchSize names).1).flatten ∧
    r.outputAsJSON = false ∧ r.events.filter Event.isUpdate = acc.1.events.filter Event.isUpdate := by
  induction cs generalizing acc with
  | nil => exact ⟨by simp, hj, rfl⟩
  | cons c cs ih =>
    rw [List.foldl_cons]
    have key : out W (loadStep env f names acc c).1.events = out W acc.1.events ++
          databaseText W.paint c.name (env.load c f.offline f.batchSize names).1 ∧
        (loadStep env f names acc c).1.outputAsJSON = false ∧
        (loadStep env f names acc c).1.events.filter Event.isUpdate = acc.1.events.filter Event.isUpdate := by
      have hd : out W (acc.1.printText (.dbName c.name)).events = out W acc.1.events ++ (g!"  " ++ c.name) :=
        out_text W _ hj _ (by intros; simp)
      have hj1 : (acc.1.printText (.dbName c.name)).outputAsJSON = false := hj
      have hu1 := upd_text acc.1 (.dbName c.name) (by intros; simp)
      unfold loadStep
      dsimp only
      generalize acc.1.printText (.dbName c.name) = r at *
      cases (env.load c f.offline f.batchSize names).1 with
      | none =>
        dsimp only
        rw [out_error, out_warn, json_error, json_warn, upd_error _ _ (by intros; simp), upd_warn, hd]
        exact ⟨rfl, hj1, hu1⟩
      | some db =>
        dsimp only
        rw [out_text W _ ((json_warn _ _ _).trans hj1) _ (by intros; simp), out_warn, json_text, json_warn,
          upd_text _ _ (by intros; simp), upd_warn, hd]
        exact ⟨by simp [TextMsg.text, databaseText, about_eq], hj1, hu1⟩
    obtain ⟨k1, k2, k3⟩ := key
    obtain ⟨i1, i2, i3⟩ := ih _ k2
    dsimp only at i1 i2 i3 ⊢
    exact ⟨by rw [i1, k1]; simp, i2, i3.trans k3⟩

/-- The text about the databases. -/
def loadedText (W : Words) (env : Env) (f : Flags) (cs : List DBConfig) (names : List Str) : Str :=
  if f.listPackages then []
  else g!"Loaded the following OSV databases:\n" ++
    (cs.map fun c => databaseText W.paint c.name (env.load c f.offline f.batchSize names).1).flatten ++ g!"\n"

theorem out_prep (W : Words) (S : Sorter) (env : Env) (f : Flags) (hj : f.json = false)
    (p : LoopState × List DB × List FileEntry) (hp : runPrep S env f = .inr p) :
    out W p.1.r.events = loadedText W env f (neededConfigs env f (readOf S env f)) (allPackageNames env (readOf S env f).files) ∧
    p.1.r.outputAsJSON = false ∧ p.1.r.events.filter Event.isUpdate = [] := by
  have h0 : Quiet W { outputAsJSON := f.json } := ⟨hj, rfl, rfl⟩
  have h1 := h0.find env f.args f.parseAs
  unfold runPrep at hp
  unfold readOf
  dsimp only at hp ⊢
  generalize findAllLockfiles env { outputAsJSON := f.json } f.args f.parseAs = found at *
  split at hp
  · cases hp
  split at hp
  · cases hp
  split at hp
  · cases hp
  split at hp
  · cases hp
  have h2 := h1.config env f
  rcases hst : startConfig env f found.1 with ⟨r, o⟩
  rw [hst] at hp h2
  cases o with
  | none => cases hp
  | some cc =>
    obtain ⟨c, cl⟩ := cc
    dsimp only at hp h2 ⊢
    cases hp
    have h3 := h2.read S env found.2.1 f.args cl c
    unfold prepare loadedText loadDatabases
    dsimp only
    generalize readAllLockfiles S env r found.2.1 f.args cl c = rs at *
    unfold neededConfigs
    generalize uniqueDBConfigs _ = cs
    cases hl : f.listPackages with
    | true => exact ⟨h3.out, h3.json, h3.upd⟩
    | false =>
      simp only [Bool.false_eq_true, if_false]
      have hh : out W (rs.r.printText .loadedHeader).events = out W rs.r.events ++ g!"Loaded the following OSV databases:\n" :=
        out_text W _ h3.json _ (by intros; simp)
      obtain ⟨k1, k2, k3⟩ := out_load W env f (allPackageNames env rs.files) cs (rs.r.printText .loadedHeader, [], false) h3.json
      dsimp only at k1 k2 k3
      refine ⟨?_, k2, ?_⟩
      · rw [out_text W _ k2 _ (by intros; simp), k1, hh, h3.out]; simp [TextMsg.text]
      · rw [upd_text _ _ (by intros; simp), k3, upd_text _ _ (by intros; simp), h3.upd]

/-! ### The loop and the end -/

theorem upd_loopStep (f : Flags) (dbs : List DB) (s : LoopState) (x : FileEntry) :
    (loopStep f dbs s x).r.events.filter Event.isUpdate = s.r.events.filter Event.isUpdate := by
  have hb : (if s.i ≥ 1 then s.r.printText .blank else s.r).events.filter Event.isUpdate = s.r.events.filter Event.isUpdate := by
    split
    · exact upd_text _ _ (by intros; simp)
    · rfl
  rw [← hb]
  clear hb
  unfold loopStep
  generalize (if s.i ≥ 1 then s.r.printText .blank else s.r) = r0
  dsimp only
  split
  · exact upd_error _ _ (by intros; simp)
  · rw [← upd_text r0 (.found x.lockf.filePath x.lockf.packages.length) (by intros; simp)]
    generalize r0.printText (.found x.lockf.filePath x.lockf.packages.length) = r1
    split
    · exact upd_result _ _
    · dsimp only
      rw [upd_result]
      generalize (if f.noConfigIgnores then { s.cells.getD x.config {} with ignore := [] }
          else s.cells.getD x.config {} : Config) = c
      have h1 : (printUsingConfig f c r1).events.filter Event.isUpdate = r1.events.filter Event.isUpdate := by
        unfold printUsingConfig
        split
        · exact upd_text _ _ (by intros; simp)
        · rfl
      rw [← h1]
      generalize printUsingConfig f c r1 = r2
      have h2 : ∀ (l : List DB) (r : RState), (l.foldl (fun r db => r.printText (.usingDb db.name db.info)) r).events.filter Event.isUpdate =
          r.events.filter Event.isUpdate := by
        intro l
        induction l with
        | nil => exact fun _ => rfl
        | cons d l ih => intro r; rw [List.foldl_cons, ih, upd_text _ _ (by intros; simp)]
      have h3 : ∀ (l : List DB) (acc : RState × List (List (List OSV))),
          (l.foldl (checkStep s.i x.lockf) acc).1.events.filter Event.isUpdate = acc.1.events.filter Event.isUpdate := by
        intro l
        induction l with
        | nil => exact fun _ => rfl
        | cons d l ih =>
          intro acc
          rw [List.foldl_cons, ih]
          unfold checkStep
          dsimp only
          split
          · rw [upd_error _ _ (by intros; simp), upd_warn]
          · rw [upd_warn]
      unfold checkLockfile checkAll
      dsimp only
      rw [h3]
      dsimp only
      rw [upd_text _ _ (by intros; simp), h2]

theorem upd_loop (f : Flags) (dbs : List DB) (files : List FileEntry) (s : LoopState) :
    (files.foldl (loopStep f dbs) s).r.events.filter Event.isUpdate = s.r.events.filter Event.isUpdate := by
  induction files generalizing s with
  | nil => rfl
  | cons x xs ih => rw [List.foldl_cons, ih, upd_loopStep]

/-- Lines about updated configs are not counted. -/
theorem out_update (W : Words) (es : List Event) (h : es.filter (fun e => !e.isUpdate) = []) : out W es = [] := by
  rw [out, h]; rfl

theorem out_write (W : Words) (env : Env) (r : RState) (hj : r.outputAsJSON = false) (per : SMap (List Str)) :
    out W (writeUpdatedConfigs env r per).1.events = out W r.events ++ (if per = [] then [] else g!"\n") ∧
    (writeUpdatedConfigs env r per).1.outputAsJSON = false := by
  unfold writeUpdatedConfigs
  dsimp only
  have hb : out W (if per.length ≠ 0 then r.printText .blank else r).events = out W r.events ++ (if per = [] then [] else g!"\n") ∧
      (if per.length ≠ 0 then r.printText .blank else r).outputAsJSON = false := by
    cases per with
    | nil => exact ⟨by simp, hj⟩
    | cons a b =>
      rw [if_pos (by simp), if_neg (by simp)]
      exact ⟨out_text W _ hj _ (by intros; simp), hj⟩
  generalize (if per.length ≠ 0 then r.printText .blank else r) = r0 at hb
  rw [← hb.1]
  have hj0 := hb.2
  clear hb
  have : ∀ (l : SMap (List Str)) (acc : RState × (Str → ConfigFile)), acc.1.outputAsJSON = false →
      out W (l.foldl (fun acc e =>
        let ignores := newIgnores e.2
        let res := updateWithIgnores acc.2 e.1 ignores (env.update e.1)
        (if res.2 then acc.1.printText (.updated e.1 ignores.length) else acc.1.printError (.updateConfig e.1), res.1)) acc).1.events =
        out W acc.1.events ∧
      (l.foldl (fun acc e =>
        let ignores := newIgnores e.2
        let res := updateWithIgnores acc.2 e.1 ignores (env.update e.1)
        (if res.2 then acc.1.printText (.updated e.1 ignores.length) else acc.1.printError (.updateConfig e.1), res.1)) acc).1.outputAsJSON = false := by
    intro l
    induction l with
    | nil => exact fun _ h => ⟨rfl, h⟩
    | cons e l ih =>
      intro acc ha
      rw [List.foldl_cons]
      refine ⟨((ih _ ?_).1).trans ?_, (ih _ ?_).2⟩
      · dsimp only; split <;> exact ha
      · dsimp only
        split
        · simp only [RState.printText, out_append]
          rw [out_update W [_] (by simp [Event.isUpdate])]
          simp
        · exact out_error _ _ _
      · dsimp only; split <;> exact ha
  exact this per _ hj0

end Osv.Output
