import Verif.Lemmas.ReportJson
import Verif.Props.C24
import Verif.Props.C68
/-! # C69 The JSON output says exactly what was found -/
namespace Osv
open Str Json Spec

/-- A text that the command may print on stdout with `--json`. -/
def StdoutJSON (S : Sorter) (env : Env) (f : Flags) (text : Str) : Prop :=
  ∃ rs, (run S env f).events.filter (fun e => decide (OnStdout e)) = [.json rs] ∧ PrintedJSON rs text

theorem shown_stdout (es : List Event) : shown es = shown (es.filter fun e => decide (OnStdout e)) := by
  induction es with
  | nil => rfl
  | cons e es ih =>
    rw [List.filter_cons]
    by_cases h : OnStdout e
    · simp only [h, decide_true, if_true]
      unfold shown at *
      rw [List.flatMap_cons, List.flatMap_cons, ih]
    · simp only [h, decide_false, Bool.false_eq_true, if_false]
      have : resultsOf e = [] := by
        cases e <;> first | rfl | exact absurd trivial h
      unfold shown at *
      rw [List.flatMap_cons, this, ih, List.nil_append]

theorem loopResults_kind (f : Flags) (dbs : List DB) (cells : List Config) (j : Nat) (files : List FileEntry) :
    (f.listPackages = false → ∃ l : List Report, loopResults f dbs cells j files = l.map .report) ∧
    (f.listPackages = true → ∃ l : List Lockfile, loopResults f dbs cells j files = l.map .lockfile) := by
  induction files generalizing j with
  | nil => exact ⟨fun _ => ⟨[], rfl⟩, fun _ => ⟨[], rfl⟩⟩
  | cons x xs ih =>
    obtain ⟨h1, h2⟩ := ih (j + 1)
    constructor
    · intro h
      obtain ⟨l, hl⟩ := h1 h
      cases he : x.err with
      | true => exact ⟨l, by simp [loopResults, resultOf, he, hl]⟩
      | false => exact ⟨reportOf f dbs (cells.getD x.config {}) j x.lockf :: l, by simp [loopResults, resultOf, he, hl, h]⟩
    · intro h
      obtain ⟨l, hl⟩ := h2 h
      cases he : x.err with
      | true => exact ⟨l, by simp [loopResults, resultOf, he, hl]⟩
      | false => exact ⟨x.lockf :: l, by simp [loopResults, resultOf, he, hl, h]⟩

theorem shown_kind (S : Sorter) (env : Env) (f : Flags) :
    (f.listPackages = false → ∃ l : List Report, shown (run S env f).events = l.map .report) ∧
    (f.listPackages = true → ∃ l : List Lockfile, shown (run S env f).events = l.map .lockfile) := by
  by_cases hs : Started f (run S env f).events
  · obtain ⟨p, hp⟩ := started_go S env f hs
    rw [run_shown, (runBody_go S env f p hp).1]
    exact loopResults_kind _ _ _ _ _
  · rw [C24_no_results S env f hs]
    exact ⟨fun _ => ⟨[], rfl⟩, fun _ => ⟨[], rfl⟩⟩

theorem printed_parse {rs : List Result} {text : Str} (h : PrintedJSON rs text) :
    ∃ vs, Each EncResult rs vs ∧ parse text = some (jobj [(g!"results", jarr vs)]) := by
  obtain ⟨vs, h1, rfl⟩ := h
  refine ⟨vs, h1, parse_render _ ?_⟩
  refine Encoded.ok_obj fun x hx => ?_
  rw [List.mem_singleton] at hx
  subst hx
  exact Encoded.ok_arr fun v hv => by obtain ⟨a, _, h⟩ := Encoded.each_mem h1 hv; exact Encoded.ok_result h

theorem readDocument_obj {α : Type} (read : JVal → Option α) (vs : List JVal) :
    readDocument read (jobj [(g!"results", jarr vs)]) = readAll (readFile read) vs := by
  rw [readDocument, Encoded.listAt_eq, Encoded.lookup_obj]
  exact Encoded.elems_arr _ _

/-- Whatever is printed on stdout with `--json` is a JSON document, and reading it gives exactly the reports that were made:
each file with its path and parser, each of its packages, and all advisories for the package, with all their fields, in order. -/
theorem C69_reports (S : Sorter) (env : Env) (f : Flags) (hl : f.listPackages = false) (text : Str)
    (h : StdoutJSON S env f text) :
    ∃ (doc : JVal) (reps : List Report), parse text = some doc ∧ shown (run S env f).events = reps.map Result.report ∧
      readDocument readPkgReport doc = some (reps.map reportContent) := by
  obtain ⟨rs, h1, h2⟩ := h
  obtain ⟨vs, h3, h4⟩ := printed_parse h2
  obtain ⟨reps, hr⟩ := (shown_kind S env f).1 hl
  refine ⟨_, reps, h4, hr, ?_⟩
  rw [readDocument_obj]
  have hrs : rs = reps.map .report := by
    rw [← hr, shown_stdout, h1]
    simp [shown, resultsOf]
  subst hrs
  clear hr h1 h2 h4
  generalize hm : reps.map Result.report = rs at h3
  induction h3 generalizing reps with
  | nil => cases reps with
    | nil => rfl
    | cons _ _ => cases hm
  | @cons a b l m hab _ ih =>
    cases reps with
    | nil => cases hm
    | cons r reps =>
      simp only [List.map_cons, List.cons.injEq] at hm
      obtain ⟨rfl, hm⟩ := hm
      simp [readAll, Encoded.readFile_report hab, ih reps hm]

/-- The same with `--list-packages`: reading the document gives exactly the packages of each file. -/
theorem C69_packages (S : Sorter) (env : Env) (f : Flags) (hl : f.listPackages = true) (text : Str)
    (h : StdoutJSON S env f text) :
    ∃ (doc : JVal) (ls : List Lockfile), parse text = some doc ∧ shown (run S env f).events = ls.map Result.lockfile ∧
      readDocument readPackage doc = some (ls.map lockfileContent) := by
  obtain ⟨rs, h1, h2⟩ := h
  obtain ⟨vs, h3, h4⟩ := printed_parse h2
  obtain ⟨reps, hr⟩ := (shown_kind S env f).2 hl
  refine ⟨_, reps, h4, hr, ?_⟩
  rw [readDocument_obj]
  have hrs : rs = reps.map .lockfile := by
    rw [← hr, shown_stdout, h1]
    simp [shown, resultsOf]
  subst hrs
  clear hr h1 h2 h4
  generalize hm : reps.map Result.lockfile = rs at h3
  induction h3 generalizing reps with
  | nil => cases reps with
    | nil => rfl
    | cons _ _ => cases hm
  | @cons a b l m hab _ ih =>
    cases reps with
    | nil => cases hm
    | cons r reps =>
      simp only [List.map_cons, List.cons.injEq] at hm
      obtain ⟨rfl, hm⟩ := hm
      simp [readAll, Encoded.readFile_lockfile hab, ih reps hm]

theorem encOSV_total (o : OSV) : ∃ v, EncOSV o v := by
  obtain ⟨as, has⟩ := Encoded.each_total (R := EncAffected) (fun a => by
    obtain ⟨rs, hrs⟩ := Encoded.each_total (R := EncRange) (fun r => ⟨_, _, .array _, rfl⟩) a.ranges
    exact ⟨_, rs, hrs, rfl⟩) o.affected
  exact ⟨_, _, as, _, .array _, has, .array _, rfl⟩

theorem encResult_total (r : Result) : ∃ v, EncResult r v := by
  cases r with
  | lockfile l => exact ⟨_, _, .array _, rfl⟩
  | report r =>
    obtain ⟨ps, hps⟩ := Encoded.each_total (R := EncPkgReport) (fun p => by
      obtain ⟨vs, hvs⟩ := Encoded.each_total encOSV_total p.vulnerabilities
      obtain ⟨is, his⟩ := Encoded.each_total encOSV_total p.ignored
      exact ⟨_, _, _, ⟨vs, hvs, rfl⟩, ⟨is, his, rfl⟩, rfl⟩) r.packages
    exact ⟨_, ps, _, hps, .array _, rfl⟩

/-- With `--json` something is always printed on stdout. -/
theorem C69_printed (S : Sorter) (env : Env) (f : Flags) (h : f.json = true) : ∃ text, StdoutJSON S env f text := by
  obtain ⟨rs, h1, -⟩ := C24_json S env f h
  obtain ⟨vs, hvs⟩ := Encoded.each_total encResult_total rs
  exact ⟨_, rs, h1, vs, hvs, rfl⟩

/-! ### Non-vacuity -/

/-- A document with two reports, one of them with an advisory that has `<`, quotes and a line break in its texts. -/
example : ∃ text, PrintedJSON [.report ⟨⟨g!"a/go.mod", g!"go.mod", []⟩, [⟨{ name := g!"m", version := g!"1" },
    [{ id := g!"A", summary := g!"<\"x\">\n" }], []⟩]⟩, .report ⟨⟨g!"b", g!"yarn.lock", []⟩, []⟩] text ∧ text =
    g!"{\"results\":[{\"filePath\":\"a/go.mod\",\"parsedAs\":\"go.mod\",\"packages\":[{\"name\":\"m\",\"version\":\"1\",\"vulnerabilities\":[{\"id\":\"A\",\"aliases\":null,\"summary\":\"\\u003c\\\"x\\\"\\u003e\\n\",\"published\":\"0001-01-01T00:00:00Z\",\"modified\":\"0001-01-01T00:00:00Z\",\"details\":\"\",\"affected\":null}],\"ignored\":[]}]},{\"filePath\":\"b\",\"parsedAs\":\"yarn.lock\",\"packages\":[]}]}" := by
  refine ⟨_, ⟨_, .cons ⟨_, _, .cons ⟨_, _, ⟨_, .cons ⟨_, _, _, .null, .nil, .null, rfl⟩ .nil, rfl⟩, ⟨_, .nil, rfl⟩, rfl⟩ .nil,
    .array _, rfl⟩ (.cons ⟨_, _, .nil, .array _, rfl⟩ .nil), rfl⟩, ?_⟩
  decide +kernel

end Osv
