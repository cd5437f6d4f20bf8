import Verif.Spec.Transcript
import Verif.Lemmas.Output
import Verif.Lemmas.Paths
import Verif.Lemmas.Discovery
/-! # How each part of the command adds to what is written -/
namespace Osv.Transcript
open Osv Spec Str

local notation "said" => transcript

/-- `r'` is `r` after something was written. -/
def Adds (W : Words) (r r' : RState) (x : Said) : Prop :=
  r'.outputAsJSON = r.outputAsJSON ∧ said W r'.events = said W r.events ++ x

theorem Adds.refl (W : Words) (r : RState) : Adds W r r [] := ⟨rfl, by simp⟩

theorem Adds.trans {W : Words} {r r' r'' : RState} {x y : Said} (h : Adds W r r' x) (h' : Adds W r' r'' y) : Adds W r r'' (x ++ y) :=
  ⟨h'.1.trans h.1, by rw [h'.2, h.2, List.append_assoc]⟩

theorem said_append (W : Words) (a b : List Event) : said W (a ++ b) = said W a ++ said W b := by simp [transcript]

/-- Where text goes. -/
def streamOf (r : RState) : Stream := if r.outputAsJSON then .stderr else .stdout

theorem adds_text (W : Words) (r : RState) (m : TextMsg) (hm : ∀ p n, m ≠ .updated p n) : Adds W r (r.printText m) [(streamOf r, m.text W)] := by
  refine ⟨rfl, ?_⟩
  have : ∀ s, Event.isUpdate (.text s m) = false := fun s => by
    cases m <;> first | rfl | exact absurd rfl (hm _ _)
  simp only [RState.printText, said_append]
  simp [transcript, this, Event.written, streamOf]

theorem adds_error (W : Words) (r : RState) (m : ErrMsg) (hm : ∀ p, m ≠ .updateConfig p) : Adds W r (r.printError m) [(.stderr, m.text W)] := by
  refine ⟨rfl, ?_⟩
  have : Event.isUpdate (.error m) = false := by
    cases m <;> first | rfl | exact absurd rfl (hm _)
  simp only [RState.printError, said_append]
  simp [transcript, this, Event.written]

theorem adds_warn (W : Words) (r : RState) (n : Str) (b : Bool) : Adds W r (r.warn n b) (if b then [(.stderr, W.diagnostics n)] else []) := by
  cases b
  · exact .refl W r
  · refine ⟨rfl, ?_⟩
    simp [RState.warn, transcript, Event.isUpdate, Event.written]

theorem adds_result (W : Words) (r : RState) (f : Flags) (hj : r.outputAsJSON = f.json) (x : Result) :
    Adds W r (r.printResult x) (saidResult f (x.text W)) := by
  unfold RState.printResult saidResult
  rw [← hj]
  cases h : r.outputAsJSON
  · exact ⟨by simp [h], by simp [transcript, Event.isUpdate, Event.written]⟩
  · exact ⟨by simp [h], by simp⟩

theorem pathIn_eq (arg : Str) : (splitParseAs arg).2 = pathIn arg := by
  unfold pathIn
  by_cases h : ':' ∈ arg
  · rw [if_pos h]
    obtain ⟨a, b, rfl, ha⟩ : ∃ a b, arg = a ++ ':' :: b ∧ ':' ∉ a := by
      induction arg with
      | nil => cases h
      | cons c t ih =>
        by_cases hc : c = ':'
        · exact ⟨[], t, by simp [hc], by simp⟩
        · obtain ⟨a, b, e, ha⟩ := ih (by simpa [Ne.symm hc] using h)
          exact ⟨c :: a, b, by simp [e], by simp [ha, Ne.symm hc]⟩
    rw [splitParseAs_colon a b ha]
    have : (a ++ ':' :: b).dropWhile (fun c => decide (c ≠ ':')) = ':' :: b := by
      rw [List.dropWhile_append_of_pos (by intro c hc; simp; rintro rfl; exact ha hc)]
      simp
    rw [this]
    rfl
  · rw [if_neg h, splitParseAs_none arg h]

theorem adds_find (W : Words) (env : Env) (f : Flags) (r : RState) :
    Adds W r (findAllLockfiles env r f.args f.parseAs).1 (saidPaths W env f) := by
  unfold findAllLockfiles saidPaths
  by_cases h : f.parseAs = csvRowName
  · rw [if_pos h, if_pos (show f.parseAs = g!"csv-row" from h)]; exact .refl W r
  · rw [if_neg h, if_neg (show ¬ f.parseAs = g!"csv-row" from h)]
    have : ∀ (args : List Str) (acc : RState × List Str × Bool), Adds W acc.1 (args.foldl (findStep env f.parseAs) acc).1
        ((args.filter fun a => decide (env.path (pathIn a) = .cannotOpen)).map fun a =>
          (.stderr, g!"Error reading " ++ pathIn a ++ g!": " ++ W.cause (.badPath (pathIn a)) ++ g!"\n")) := by
      intro args
      induction args with
      | nil => exact fun acc => .refl W acc.1
      | cons a args ih =>
        intro acc
        rw [List.foldl_cons, List.filter_cons]
        have e : (findLockfiles env (splitParseAs a).2 (if (splitParseAs a).1 = [] then f.parseAs else (splitParseAs a).1)).2 =
            decide (env.path (pathIn a) = .cannotOpen) := by
          rw [pathIn_eq]
          unfold findLockfiles
          cases env.path (pathIn a) <;> rfl
        have h1 : (findStep env f.parseAs acc a).1 =
            if decide (env.path (pathIn a) = .cannotOpen) then acc.1.printError (.badPath (pathIn a)) else acc.1 := by
          unfold findStep
          dsimp only
          rw [e, pathIn_eq]
        by_cases hc : env.path (pathIn a) = .cannotOpen
        · simp only [hc, decide_true, if_true] at h1 ⊢
          have h2 := adds_error W acc.1 (.badPath (pathIn a)) (by intros; simp)
          rw [← h1] at h2
          exact h2.trans (ih _)
        · simp only [hc, decide_false, Bool.false_eq_true, if_false] at h1 ⊢
          have := ih (findStep env f.parseAs acc a)
          rwa [h1] at this
    exact this f.args (r, [], false)

theorem adds_dropped (W : Words) (path : Str) (es : List RawDBErr) (r : RState) : Adds W r (printDropped r path es) (saidDropped W path es) := by
  unfold printDropped saidDropped
  induction es generalizing r with
  | nil => exact .refl W r
  | cons e es ih => exact (adds_error W r (.invalidDatabase path e) (by intros; simp)).trans (ih _)

theorem adds_config (W : Words) (env : Env) (f : Flags) (r : RState) : Adds W r (startConfig env f r).1 (saidConfig W env f) ∧
    (∀ c cl, (startConfig env f r).2 = some (c, cl) → (cl = true ↔ ¬ (f.listPackages = true ∨ f.noConfig = true ∨ f.configPath ≠ []))) := by
  unfold startConfig saidConfig
  cases hl : f.listPackages with
  | true =>
    simp only [if_true, true_or]
    exact ⟨.refl W r, fun c cl h => by injection h with h; injection h with _ h; subst h; simp⟩
  | false =>
    simp only [Bool.false_eq_true, if_false, false_or]
    cases hn : f.noConfig with
    | true =>
      simp only [Bool.not_true, Bool.false_and, Bool.false_eq_true, if_false, true_or, if_true]
      exact ⟨.refl W r, fun c cl h => by injection h with h; injection h with _ h; subst h; simp⟩
    | false =>
      by_cases hp : f.configPath = []
      · simp only [hp, ne_eq, not_true_eq_false, decide_false, Bool.and_false, Bool.false_eq_true, if_false, or_true, if_true]
        exact ⟨.refl W r, fun c cl h => by injection h with h; injection h with _ h; subst h; simp⟩
      · simp only [hp, ne_eq, not_false_eq_true, decide_true, Bool.not_false, Bool.and_true, if_true, Bool.false_eq_true, or_false, if_false]
        cases loadConfig env.validURL env.config f.configPath with
        | error e => exact ⟨adds_error W r (.badConfig e) (by intros; simp), fun c cl h => by cases h⟩
        | ok q => exact ⟨adds_dropped W _ _ r, fun c cl h => by injection h with h; injection h with _ h; subst h; simp⟩

/-- What `readAllLockfiles` says. -/
def saidRead (W : Words) (env : Env) (cl : Bool) (paths : List Str) : Said :=
  if cl then paths.flatMap fun p => match findConfig env.validURL env.config (Path.dir (pathIn p)) with
    | .ok (c, dropped) => saidDropped W c.filePath dropped
    | .error _ => []
  else []

theorem adds_read (W : Words) (S : Sorter) (env : Env) (paths args : List Str) (cl : Bool) (c : Config) (r : RState) :
    Adds W r (readAllLockfiles S env r paths args cl c).r (saidRead W env cl paths) := by
  unfold readAllLockfiles saidRead
  have : ∀ s : ReadState, Adds W s.r (paths.foldl (readStep S env args cl) s).r (saidRead W env cl paths) := by
    induction paths with
    | nil => intro s; unfold saidRead; cases cl <;> exact .refl W s.r
    | cons p paths ih =>
      intro s
      rw [List.foldl_cons]
      have h1 : Adds W s.r (readStep S env args cl s p).r (saidRead W env cl [p]) := by
        unfold readStep saidRead
        dsimp only
        rw [pathIn_eq]
        cases cl with
        | true =>
          simp only [if_true, List.flatMap_cons, List.flatMap_nil, List.append_nil]
          cases findConfig env.validURL env.config (Path.dir (pathIn p)) with
          | error e => exact .refl W s.r
          | ok q => exact adds_dropped W _ _ s.r
        | false =>
          simp only [Bool.false_eq_true, if_false]
          split <;> exact .refl W s.r
      have h2 := h1.trans (ih (readStep S env args cl s p))
      have e : saidRead W env cl [p] ++ saidRead W env cl paths = saidRead W env cl (p :: paths) := by
        unfold saidRead; cases cl <;> simp
      rwa [e] at h2
  exact this ⟨r, [c], 0, []⟩

theorem textStream_eq {r : RState} {f : Flags} (h : r.outputAsJSON = f.json) : streamOf r = textStream f := by
  unfold streamOf textStream; rw [h]

theorem adds_loads (W : Words) (env : Env) (f : Flags) (names : List Str) (cs : List DBConfig) :
    ∀ acc : RState × List DB × Bool, acc.1.outputAsJSON = f.json →
      Adds W acc.1 (cs.foldl (loadStep env f names) acc).1 (cs.flatMap (saidLoad W env f names)) := by
  induction cs with
  | nil => exact fun acc _ => .refl W acc.1
  | cons c cs ih =>
    intro acc hj
    rw [List.foldl_cons, List.flatMap_cons]
    have h1 : Adds W acc.1 (loadStep env f names acc c).1 (saidLoad W env f names c) := by
      have a1 := adds_text W acc.1 (.dbName c.name) (by intros; simp)
      rw [textStream_eq hj] at a1
      have a2 := a1.trans (adds_warn W (acc.1.printText (.dbName c.name)) c.name (env.load c f.offline f.batchSize names).2)
      unfold loadStep saidLoad
      dsimp only
      cases (env.load c f.offline f.batchSize names).1 with
      | none => exact a2.trans (adds_error W _ (.dbLoad c.name) (by intros; simp))
      | some db =>
        have a3 := a2.trans (adds_text W _ (.dbDesc db.info) (by intros; simp))
        rw [textStream_eq (a2.1.trans hj)] at a3
        have : (TextMsg.dbDesc db.info).text W = aboutDatabase W.paint db.info ++ g!"\n" := by
          simp only [TextMsg.text, Output.about_eq]
        rwa [this] at a3
    exact h1.trans (ih _ (h1.1.trans hj))

theorem adds_databases (W : Words) (env : Env) (f : Flags) (r : RState) (hj : r.outputAsJSON = f.json) (cs : List DBConfig) (names : List Str) :
    Adds W r (loadDatabases env f r cs names).1 (saidLoads W env f names cs) := by
  unfold loadDatabases saidLoads
  cases f.listPackages with
  | true => exact .refl W r
  | false =>
    simp only [Bool.false_eq_true, if_false]
    have a1 := adds_text W r .loadedHeader (by intros; simp)
    rw [textStream_eq hj] at a1
    have a2 := a1.trans (adds_loads W env f names cs (r.printText .loadedHeader, [], false) (a1.1.trans hj))
    have a3 := a2.trans (adds_text W _ .blank (by intros; simp))
    rw [textStream_eq (a2.1.trans hj)] at a3
    exact a3

theorem adds_texts {β : Type} (W : Words) (f : Flags) (g : β → TextMsg) (hg : ∀ b p n, g b ≠ .updated p n) (l : List β) (r : RState)
    (hj : r.outputAsJSON = f.json) :
    Adds W r (l.foldl (fun r b => r.printText (g b)) r) (l.map fun b => (textStream f, (g b).text W)) := by
  induction l generalizing r with
  | nil => exact .refl W r
  | cons b l ih =>
    have a1 := adds_text W r (g b) (hg b)
    rw [textStream_eq hj] at a1
    exact a1.trans (ih _ (a1.1.trans hj))

theorem adds_checks (W : Words) (n : Nat) (l : Lockfile) (dbs : List DB) (acc : RState × List (List (List OSV))) :
    Adds W acc.1 (dbs.foldl (checkStep n l) acc).1 (dbs.flatMap (saidCheck W n l)) := by
  induction dbs generalizing acc with
  | nil => exact .refl W acc.1
  | cons db dbs ih =>
    rw [List.foldl_cons, List.flatMap_cons]
    have h1 : Adds W acc.1 (checkStep n l acc db).1 (saidCheck W n l db) := by
      have a1 := adds_warn W acc.1 db.name (db.check n l.packages).2
      unfold checkStep saidCheck
      dsimp only
      cases (db.check n l.packages).1 with
      | error e => exact a1.trans (adds_error W _ (.dbCheck l.filePath db.name) (by intros; simp))
      | ok _ => exact a1.trans (.refl W _)
    exact h1.trans (ih _)

theorem adds_usingConfig (W : Words) (f : Flags) (c c' : Config) (h : CfgSame f c c') (r : RState) (hj : r.outputAsJSON = f.json) :
    Adds W r (printUsingConfig f c r) (if c'.filePath = [] then [] else [(textStream f, configLine W.paint f.noConfigIgnores c')]) := by
  obtain ⟨h1, -, h3⟩ := h
  unfold printUsingConfig configLine
  rw [← h1]
  by_cases hp : c.filePath = []
  · rw [if_neg (by simpa using hp), if_pos hp]; exact .refl W r
  · rw [if_pos hp, if_neg hp, if_neg hp]
    have a1 := adds_text W r (.usingConfig c.filePath (if f.noConfigIgnores then none else some c.ignore.length)) (by intros; simp)
    rw [textStream_eq hj] at a1
    have : (TextMsg.usingConfig c.filePath (if f.noConfigIgnores then none else some c.ignore.length)).text W =
        g!"  Using config at " ++ W.paint .magenta c.filePath ++ g!" (" ++
          (if f.noConfigIgnores then g!"skipping any ignores"
            else W.paint .yellow (showNat c'.ignore.length ++ noun c'.ignore.length g!" ignore" g!" ignores")) ++ g!")\n" := by
      cases hn : f.noConfigIgnores with
      | true => simp [TextMsg.text]
      | false =>
        rw [← h3 hn]
        simp only [TextMsg.text, form, noun, Bool.false_eq_true, if_false]
        split <;> simp
    rwa [this] at a1

theorem adds_loopStep (W : Words) (f : Flags) (dbs : List DB) (cells : List Config) (s : LoopState) (x : FileEntry)
    (h : CellsSame f s.cells cells) (hj : s.r.outputAsJSON = f.json) :
    ∃ y, SaidFile W f (cells.getD x.config {}) (forConfigs dbs (cells.getD x.config {}).databases) s.i x (resultOf f dbs cells s.i x).toList y ∧
      Adds W s.r (loopStep f dbs s x).r ((if s.i = 0 then [] else [(textStream f, g!"\n")]) ++ y) := by
  have hb : Adds W s.r (if s.i ≥ 1 then s.r.printText .blank else s.r) (if s.i = 0 then [] else [(textStream f, g!"\n")]) := by
    by_cases hi : s.i = 0
    · rw [if_neg (by omega), if_pos hi]; exact .refl W s.r
    · rw [if_pos (by omega), if_neg hi]
      have := adds_text W s.r .blank (by intros; simp)
      rwa [textStream_eq hj] at this
  suffices hs : ∃ y, SaidFile W f (cells.getD x.config {}) (forConfigs dbs (cells.getD x.config {}).databases) s.i x (resultOf f dbs cells s.i x).toList y ∧
      Adds W (if s.i ≥ 1 then s.r.printText .blank else s.r) (loopStep f dbs s x).r y by
    obtain ⟨y, h1, h2⟩ := hs
    exact ⟨y, h1, hb.trans h2⟩
  have hj0 := hb.1.trans hj
  clear hb
  unfold loopStep resultOf
  generalize (if s.i ≥ 1 then s.r.printText .blank else s.r) = r0 at *
  cases he : x.err with
  | true =>
    simp only [if_true]
    exact ⟨_, .failed he, adds_error W r0 (.lockfile x.lockf.filePath) (by intros; simp)⟩
  | false =>
    simp only [Bool.false_eq_true, if_false]
    have hf := adds_text W r0 (.found x.lockf.filePath x.lockf.packages.length) (by intros; simp)
    rw [textStream_eq hj0, Output.text_found] at hf
    generalize r0.printText (.found x.lockf.filePath x.lockf.packages.length) = r1 at *
    have hj1 := hf.1.trans hj0
    cases hl : f.listPackages with
    | true =>
      simp only [if_true]
      have a1 := hf.trans (adds_result W r1 f hj1 (.lockfile x.lockf))
      have : (Result.lockfile x.lockf).text W = packageLines x.lockf.packages := Output.lockfile_text _
      rw [this] at a1
      exact ⟨_, .listed he hl, a1⟩
    | false =>
      simp only [Bool.false_eq_true, if_false]
      have hsame : CfgSame f (if f.noConfigIgnores then { s.cells.getD x.config {} with ignore := [] }
          else s.cells.getD x.config {}) (cells.getD x.config {}) := by
        obtain ⟨h1, h2, h3⟩ := h x.config
        cases hn : f.noConfigIgnores with
        | true => exact ⟨h1, h2, by simp [hn]⟩
        | false => exact ⟨h1, h2, h3⟩
      generalize (if f.noConfigIgnores then { s.cells.getD x.config {} with ignore := [] }
          else s.cells.getD x.config {} : Config) = c at hsame
      have a2 := hf.trans (adds_usingConfig W f c _ hsame r1 hj1)
      generalize printUsingConfig f c r1 = r2 at *
      have a3 := a2.trans (adds_texts W f (fun db : DB => .usingDb db.name db.info) (by intros; simp) (forConfigs dbs c.databases) r2 (a2.1.trans hj0))
      generalize (forConfigs dbs c.databases).foldl (fun r db => r.printText (.usingDb db.name db.info)) r2 = r3 at *
      have a4 := adds_text W r3 .blank (by intros; simp)
      rw [textStream_eq (a3.1.trans hj0)] at a4
      have a4 := a3.trans a4
      generalize r3.printText .blank = r4 at *
      have hrep := checkLockfile_report s.i dbs r4 x.lockf f c
      rw [hsame.report] at hrep
      have a5 := a4.trans (adds_checks W s.i x.lockf (forConfigs dbs c.databases) (r4, []))
      have hfst : (checkLockfile s.i (forConfigs dbs c.databases) r4 x.lockf (ignoresFor f c)).1 =
        ((forConfigs dbs c.databases).foldl (checkStep s.i x.lockf) (r4, [])).1 := rfl
      generalize checkLockfile s.i (forConfigs dbs c.databases) r4 x.lockf (ignoresFor f c) = res at *
      rw [← hfst] at a5
      have a6 := a5.trans (adds_result W res.1 f (a5.1.trans hj0) (.report res.2))
      rw [hsame.2.1, hrep] at a6
      refine ⟨_, .checked _ he hl rfl, ?_⟩
      have : (fun (b : DB) => (textStream f, (TextMsg.usingDb b.name b.info).text W)) = fun b => (textStream f, usingLine W.paint b) := by
        funext b; rw [Output.text_using]
      rw [this, ← hrep] at a6
      rw [← hrep]
      exact a6

theorem adds_loop (W : Words) (f : Flags) (dbs : List DB) (cells : List Config) (files : List FileEntry) (s : LoopState)
    (h : CellsSame f s.cells cells) (hj : s.r.outputAsJSON = f.json) :
    ∃ y, SaidFiles W f (fun x => cells.getD x.config {}) (fun c => forConfigs dbs c.databases) s.i files (loopResults f dbs cells s.i files) y ∧
      Adds W s.r (files.foldl (loopStep f dbs) s).r y := by
  induction files generalizing s with
  | nil => exact ⟨[], .nil, .refl W s.r⟩
  | cons x xs ih =>
    obtain ⟨h1, h2, -, -, -⟩ := loopStep_fun f dbs cells s x h
    have h2 : (loopStep f dbs s x).i = s.i + 1 := h2
    obtain ⟨y, y1, y2⟩ := adds_loopStep W f dbs cells s x h hj
    obtain ⟨z, z1, z2⟩ := ih (loopStep f dbs s x) h1 (y2.1.trans hj)
    rw [h2] at z1
    exact ⟨_, .cons y1 z1, y2.trans z2⟩

theorem adds_write (W : Words) (env : Env) (f : Flags) (r : RState) (hj : r.outputAsJSON = f.json) (per : SMap (List Str)) :
    Adds W r (writeUpdatedConfigs env r per).1 (if per = [] then [] else [(textStream f, g!"\n")]) := by
  unfold writeUpdatedConfigs
  dsimp only
  have hb : Adds W r (if per.length ≠ 0 then r.printText .blank else r) (if per = [] then [] else [(textStream f, g!"\n")]) := by
    cases per with
    | nil => exact .refl W r
    | cons a b =>
      rw [if_pos (by simp), if_neg (by simp)]
      have := adds_text W r .blank (by intros; simp)
      rwa [textStream_eq hj] at this
  generalize (if per.length ≠ 0 then r.printText .blank else r) = r0 at hb
  have : ∀ (l : SMap (List Str)) (acc : RState × (Str → ConfigFile)),
      Adds W acc.1 (l.foldl (fun acc e =>
        let ignores := newIgnores e.2
        let res := updateWithIgnores acc.2 e.1 ignores (env.update e.1)
        (if res.2 then acc.1.printText (.updated e.1 ignores.length) else acc.1.printError (.updateConfig e.1), res.1)) acc).1 [] := by
    intro l
    induction l with
    | nil => exact fun acc => .refl W acc.1
    | cons e l ih =>
      intro acc
      rw [List.foldl_cons]
      refine Adds.trans (x := []) ?_ (ih _)
      dsimp only
      split
      · exact ⟨rfl, by simp [RState.printText, transcript, Event.isUpdate]⟩
      · exact ⟨rfl, by simp [RState.printError, transcript, Event.isUpdate]⟩
  have h2 := hb.trans (this per (r0, env.config))
  rwa [List.append_nil] at h2

theorem streams (W : Words) (s : Stream) (es : List Event) :
    streamText W s es = (transcript W es).on s ++ (sortStr (es.filterMap (updateText W s))).flatten := by
  unfold streamText transcript Said.on
  congr 1
  · unfold writtenTo
    rw [List.filterMap_map]
    rfl
  · congr 2
    unfold writtenTo
    rw [List.filterMap_filter]
    congr 1
    funext e
    cases e with
    | text t m =>
      cases m with
      | updated p n =>
        simp only [Event.isUpdate, Event.written, TextMsg.text, updateText, updatedLine, form, noun, if_true]
        by_cases ht : t = s
        · refine (if_pos ht).trans (Eq.trans ?_ (if_pos ht).symm)
          split <;> simp
        · exact (if_neg ht).trans (if_neg ht).symm
      | _ => rfl
    | error m =>
      cases m with
      | updateConfig p =>
        simp only [Event.isUpdate, Event.written, ErrMsg.text, updateText, if_true]
        cases s <;> simp
      | _ => rfl
    | _ => rfl

end Osv.Transcript
