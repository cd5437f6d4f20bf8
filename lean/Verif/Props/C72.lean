import Verif.Lemmas.Cli
import Verif.Props.C22
/-!
# C72 Command line

Options are read up to the first path. What follows is a path, even if it looks like an option; then the command does not exit with 0
unless such a file exists.
-/
namespace Osv
open Str Spec

/-- Arguments are accepted exactly if they are valid options followed by paths, and then the flags are what these options mean: the
last one of each name counts, ignored IDs are collected. -/
theorem C72_accepted (atoi : Str → Option Int) (preferAPI : Bool) (args : List Str) (f : Flags) :
    parseArgs atoi (defaultFlags preferAPI) args = .ok f ↔
      ∃ opts paths, (∀ o ∈ opts, o.Valid atoi) ∧ Splits args opts paths ∧ Means atoi preferAPI opts paths f := by
  have key : ∀ opts paths, (∀ o ∈ opts, o.Valid atoi) → Splits args opts paths → parseArgs atoi (defaultFlags preferAPI) args =
      .ok { opts.foldl (Cli.apply atoi) (defaultFlags preferAPI) with args := paths } := by
    intro opts paths hv hs
    rcases hs with ⟨rfl, hp⟩ | rfl
    · rw [Cli.parse_opts atoi opts hv, Cli.parse_tail atoi _ paths hp]
    · rw [Cli.parse_opts atoi opts hv, Cli.parse_dashes]
  constructor
  · intro h
    obtain ⟨opts, paths, hv, hs⟩ := Cli.parse_split atoi args _ f h
    have := key opts paths hv hs
    rw [h] at this
    cases this
    exact ⟨opts, paths, hv, hs, Cli.means atoi preferAPI opts hv paths⟩
  · rintro ⟨opts, paths, hv, hs, hm⟩
    rw [key opts paths hv hs, Cli.means_unique hm (Cli.means atoi preferAPI opts hv paths)]

/-- The help is printed exactly if the first argument that is neither a valid option nor a path asks for it. -/
theorem C72_help (atoi : Str → Option Int) (preferAPI : Bool) (args : List Str) :
    parseArgs atoi (defaultFlags preferAPI) args = .error .help ↔
      ∃ (opts : List Opt) (s : Str) (more : List Str), (∀ o ∈ opts, o.Valid atoi) ∧ args = opts.flatMap Opt.words ++ s :: more ∧ AsksHelp s := by
  constructor
  · exact Cli.parse_help atoi args _
  · rintro ⟨opts, s, more, hv, rfl, dash, name, tail, hd, hn, rfl, ht⟩
    rw [Cli.parse_opts atoi opts hv]
    have hc : ∃ r, name = 'h' :: r ∧ '=' ∉ name ∧ boolFlags.lookup name = none ∧ (valueFlags atoi).lookup name = none := by
      rcases hn with rfl | rfl <;> exact ⟨_, rfl, by decide, rfl, rfl⟩
    obtain ⟨r, hr, he, hb, hvl⟩ := hc
    have hsp : ∃ val, splitEquals (name ++ tail) = (name, val) := by
      rcases ht with rfl | ⟨v, rfl⟩
      · exact ⟨none, by rw [List.append_nil, Cli.splitEquals_plain he]⟩
      · exact ⟨some v, by rw [← Cli.splitEquals_joined v he (by rw [hr]; simp)]; simp⟩
    obtain ⟨val, hsp⟩ := hsp
    have e : dash ++ name ++ tail = dash ++ 'h' :: (r ++ tail) := by rw [hr]; simp
    rw [e, Cli.parseArgs_option atoi _ hd (by decide) (by decide), show 'h' :: (r ++ tail) = name ++ tail by rw [hr]; rfl, hsp]
    unfold Cli.readOption
    dsimp only
    rw [hb]
    dsimp only
    rw [hvl]
    dsimp only
    rcases hn with rfl | rfl <;> rfl

/-- Arguments that are not accepted never start a run: if the first argument that is neither a valid option nor a path asks for help,
the exit code is 0, and it is 2 otherwise. -/
theorem C72_rejected (S : Sorter) (env : Env) (atoi : Str → Option Int) (preferAPI : Bool) (args : List Str)
    (h : ¬ ∃ opts paths, (∀ o ∈ opts, o.Valid atoi) ∧ Splits args opts paths) (code : Nat × Option RunResult) :
    mainExit S env atoi preferAPI args = code ↔ code.2 = none ∧
      (((∃ (opts : List Opt) (s : Str) (more : List Str), (∀ o ∈ opts, o.Valid atoi) ∧ args = opts.flatMap Opt.words ++ s :: more ∧
          AsksHelp s) ∧ code.1 = 0) ∨
       ((¬ ∃ (opts : List Opt) (s : Str) (more : List Str), (∀ o ∈ opts, o.Valid atoi) ∧ args = opts.flatMap Opt.words ++ s :: more ∧
          AsksHelp s) ∧ code.1 = 2)) := by
  rw [← C72_help atoi preferAPI args]
  obtain ⟨n, r⟩ := code
  unfold mainExit
  cases hp : parseArgs atoi (defaultFlags preferAPI) args with
  | error e => cases e <;> simp [and_comm, eq_comm]
  | ok f =>
    obtain ⟨opts, paths, hv, hs⟩ := Cli.parse_split atoi args _ f hp
    exact absurd ⟨opts, paths, hv, hs⟩ h

/-- Arguments that are accepted start a run with the flags they mean, and its exit code is that of the command. -/
theorem C72_started (S : Sorter) (env : Env) (atoi : Str → Option Int) (preferAPI : Bool) (args : List Str) (opts : List Opt)
    (paths : List Str) (hv : ∀ o ∈ opts, o.Valid atoi) (hs : Splits args opts paths) :
    ∃ f, Means atoi preferAPI opts paths f ∧ mainExit S env atoi preferAPI args = ((run S env f).exit, some (run S env f)) := by
  have hm := Cli.means atoi preferAPI opts hv paths
  have hp := (C72_accepted atoi preferAPI args _).2 ⟨opts, paths, hv, hs, hm⟩
  refine ⟨_, hm, ?_⟩
  unfold mainExit
  rw [hp]

/-- If the command exits with 0 after checking, then everything after the options exists as a file or directory. So an option behind a
path, which has no effect, does not go unnoticed, unless there is a file of that name. -/
theorem C72_misplaced (S : Sorter) (env : Env) (atoi : Str → Option Int) (preferAPI : Bool) (args : List Str) (opts : List Opt)
    (paths : List Str) (hv : ∀ o ∈ opts, o.Valid atoi) (hs : Splits args opts paths)
    (hno : ∀ o ∈ opts, o.name ≠ g!"version" ∧ o.name ≠ g!"list-ecosystems" ∧ o.name ≠ g!"parse-as")
    (h : (mainExit S env atoi preferAPI args).1 = 0) : ∀ arg ∈ paths, ∀ p, PathPart arg p → env.path p ≠ .cannotOpen := by
  have hm := Cli.means atoi preferAPI opts hv paths
  have hp := (C72_accepted atoi preferAPI args _).2 ⟨opts, paths, hv, hs, hm⟩
  generalize ({ opts.foldl (Cli.apply atoi) (defaultFlags preferAPI) with args := paths } : Flags) = f at hm hp
  unfold mainExit at h
  rw [hp] at h
  have hlast : ∀ {α : Type} {name : Str} {R : Opt → α → Prop} {d a : α}, Last opts name R d a → (∀ o ∈ opts, o.name ≠ name) → a = d := by
    intro α name R d a hl hne
    rcases hl with ⟨pre, o, post, he, hn, -, -⟩ | ⟨-, ha⟩
    · exact absurd hn (hne o (by rw [he]; simp))
    · exact ha
  have h1 := hlast hm.printVersion fun o ho => (hno o ho).1
  have h2 := hlast hm.listEcosystems fun o ho => (hno o ho).2.1
  have h3 := hlast hm.parseAs fun o ho => (hno o ho).2.2
  have := (C22_exit_zero_partial S env f h1 h2 h).2.2.1 (by rw [h3]; decide)
  rw [hm.args] at this
  exact this

/-! ### Non-vacuity -/

/-- `--json -ignore A --batch-size=5 --ignore B --json=false go.mod --offline` -/
def sampleCli : List Opt :=
  [{ dash := g!"--", name := g!"json" }, { dash := g!"-", name := g!"ignore", value := some g!"A", apart := true },
   { dash := g!"--", name := g!"batch-size", value := some g!"5" }, { dash := g!"--", name := g!"ignore", value := some g!"B", apart := true },
   { dash := g!"--", name := g!"json", value := some g!"false" }]

example : (∀ o ∈ sampleCli, o.Valid fun _ => some 5) ∧
    Splits [g!"--json", g!"-ignore", g!"A", g!"--batch-size=5", g!"--ignore", g!"B", g!"--json=false", g!"go.mod", g!"--offline"]
      sampleCli [g!"go.mod", g!"--offline"] := by
  refine ⟨?_, .inl ⟨by decide, by rintro p ps ⟨⟩ ⟨c, r, h⟩; simp at h⟩⟩
  intro o ho
  simp only [sampleCli, List.mem_cons, List.not_mem_nil, or_false] at ho
  rcases ho with rfl | rfl | rfl | rfl | rfl
  · exact ⟨.inr rfl, .inl ⟨by decide, rfl, true, .inl ⟨rfl, rfl⟩⟩⟩
  · exact ⟨.inl rfl, .inr ⟨by decide, _, rfl, fun _ => ⟨5, rfl⟩⟩⟩
  · exact ⟨.inr rfl, .inr ⟨by decide, _, rfl, fun _ => ⟨5, rfl⟩⟩⟩
  · exact ⟨.inr rfl, .inr ⟨by decide, _, rfl, fun _ => ⟨5, rfl⟩⟩⟩
  · exact ⟨.inr rfl, .inl ⟨by decide, rfl, false, .inr ⟨_, rfl, by unfold TruthWord; decide⟩⟩⟩

/-- The option after the path is taken as a path. -/
example : (match parseArgs (fun _ => some 5) (defaultFlags false)
      [g!"--json", g!"-ignore", g!"A", g!"--batch-size=5", g!"--ignore", g!"B", g!"--json=false", g!"go.mod", g!"--offline"] with
    | .ok f => decide (f = { batchSize := 5, globalIgnores := [g!"A", g!"B"], args := [g!"go.mod", g!"--offline"] })
    | .error _ => false) = true := by decide +kernel

/-- Unknown options and values that are missing. -/
example : (match parseArgs (fun _ => none) (defaultFlags false) [g!"--ignores", g!"A"] with | .ok _ => false | .error e => e = .bad) = true ∧
    (match parseArgs (fun _ => none) (defaultFlags false) [g!"--config"] with | .ok _ => false | .error e => e = .bad) = true ∧
    (match parseArgs (fun _ => none) (defaultFlags false) [g!"--json", g!"-h"] with | .ok _ => false | .error e => e = .help) = true := by
  decide +kernel

end Osv
