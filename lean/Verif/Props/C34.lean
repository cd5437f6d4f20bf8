import Verif.Props.C33
/-! # C34 Directory discovery -/
namespace Osv
open Spec

/-- The entries of a directory that are checked. -/
def wantedEntries (pa : Str) (entries : List (Str × Bool)) : List Str :=
  (entries.filter fun e => !e.2 && (decide (pa = g!"csv-file") || decide (parserOf pa e.1 ∈ parserNames))).map (·.1)

/-- For a directory: exactly the paths of the non-directory entries with a known parser, sorted. -/
theorem C34_directory (env : Env) (path pa : Str) (entries : List (Str × Bool)) (h : env.path path = .dir entries) :
    (findLockfiles env path pa).2 = false ∧
    (findLockfiles env path pa).1.Perm ((wantedEntries pa entries).map (Path.join2 path)) ∧
    (findLockfiles env path pa).1.Pairwise Str.Le := by
  unfold findLockfiles
  rw [h]
  dsimp only
  refine ⟨rfl, ?_, sortStr_sorted _⟩
  refine (sortStr_perm _).trans (.of_eq ?_)
  unfold wantedEntries
  clear h
  induction entries with
  | nil => rfl
  | cons e es ih =>
    rw [List.filterMap_cons, List.filter_cons]
    obtain ⟨n, d⟩ := e
    have hi := ih
    cases d with
    | true => simpa using hi
    | false =>
      by_cases hc : pa ≠ csvFileName ∧ findParser n pa = none
      · have h1 : pa ≠ g!"csv-file" := hc.1
        have h2 := (findParser_none n pa).1 hc.2
        simp [hc, h1, h2] at hi ⊢
        exact hi
      · have hk : (decide (pa = g!"csv-file") || decide (parserOf pa n ∈ parserNames)) = true := by
          rw [Bool.or_eq_true, decide_eq_true_eq, decide_eq_true_eq]
          by_cases h1 : pa = g!"csv-file"
          · exact .inl h1
          · exact .inr (Classical.byContradiction fun hn => hc ⟨h1, (findParser_none n pa).2 hn⟩)
        simp only [Bool.false_eq_true, if_false, if_neg hc, Bool.not_false, Bool.true_and, hk, if_true, List.map_cons, hi]

/-- The order in which the directory is listed does not matter. -/
theorem C34_listing_order (env env' : Env) (path pa : Str) (es es' : List (Str × Bool)) (hp : es.Perm es')
    (h : env.path path = .dir es) (h' : env'.path path = .dir es') : findLockfiles env path pa = findLockfiles env' path pa := by
  unfold findLockfiles
  rw [h, h']
  dsimp only
  rw [sortStr_eq_of_perm (hp.filterMap _)]

/-- Exactly the discovered files are passed on: files given as arguments, and entries of directories given as arguments.
Nothing below a subdirectory is reached. -/
theorem C34_exact (env : Env) (r : RState) (args : List Str) (g : Str) (hg : g ≠ csvRowName) (p : Str) :
    p ∈ (findAllLockfiles env r args g).2.1 ↔ ∃ want q, p = want ++ ':' :: q ∧ Discovers env g args want q :=
  mem_found env r args g hg p

/-- Arguments are handled one by one, in order. -/
theorem C34_arguments_in_order (env : Env) (r : RState) (a b : List Str) (g : Str) (hg : g ≠ csvRowName) :
    (findAllLockfiles env r (a ++ b) g).2.1 = (findAllLockfiles env r a g).2.1 ++ (findAllLockfiles env r b g).2.1 := by
  simp [findAll_paths, hg]

/-- Only the arguments themselves are looked at: what is at any other path makes no difference. -/
theorem C34_no_descent (env env' : Env) (r : RState) (args : List Str) (g : Str)
    (h : ∀ arg ∈ args, ∀ parser path, Asks arg parser path → env.path path = env'.path path) :
    findAllLockfiles env r args g = findAllLockfiles env' r args g := by
  unfold findAllLockfiles
  split
  · rfl
  · generalize (r, ([] : List Str), false) = acc
    induction args generalizing acc with
    | nil => rfl
    | cons a as ih =>
      rw [List.foldl_cons, List.foldl_cons]
      have : findStep env g acc a = findStep env' g acc a := by
        unfold findStep findLockfiles
        dsimp only
        rw [h a (by simp) _ _ ((asks_iff a (splitParseAs a).1 (splitParseAs a).2).2 rfl)]
      rw [this]
      exact ih (fun arg ha => h arg (by simp [ha])) _

/-- The paths that cannot be opened are those, and the only ones, that are complained about; whether there were any is told
apart from what was found. That a path can be opened but not examined or listed is not noticed. -/
theorem C34_errors (env : Env) (r : RState) (args : List Str) (g : Str) :
    ((findAllLockfiles env r args g).2.2 = true ↔
      g ≠ g!"csv-row" ∧ ∃ arg ∈ args, ∃ parser path, Asks arg parser path ∧ env.path path = .cannotOpen) ∧
    ∀ e, e ∈ (findAllLockfiles env r args g).1.events ↔
      e ∈ r.events ∨ (g ≠ g!"csv-row" ∧ ∃ arg ∈ args, ∃ parser path, Asks arg parser path ∧ env.path path = .cannotOpen ∧
        e = .error (.badPath path)) := by
  unfold findAllLockfiles
  by_cases hg : g = csvRowName
  · rw [if_pos hg]; subst hg; simp [csvRowName]
  rw [if_neg hg]
  have hg' : g ≠ g!"csv-row" := hg
  have hone : ∀ path pa, (findLockfiles env path pa).2 = true ↔ env.path path = .cannotOpen := by
    intro path pa
    unfold findLockfiles
    split <;> simp_all
  have hstep : ∀ (acc : RState × List Str × Bool) arg,
      ((findStep env g acc arg).2.2 = true ↔ acc.2.2 = true ∨ env.path (splitParseAs arg).2 = .cannotOpen) ∧
      ∀ e, e ∈ (findStep env g acc arg).1.events ↔ e ∈ acc.1.events ∨
        (env.path (splitParseAs arg).2 = .cannotOpen ∧ e = .error (.badPath (splitParseAs arg).2)) := by
    intro acc arg
    have h1 := hone (splitParseAs arg).2 (if (splitParseAs arg).1 = [] then g else (splitParseAs arg).1)
    unfold findStep
    dsimp only
    generalize findLockfiles env (splitParseAs arg).2 _ = res at *
    refine ⟨by rw [Bool.or_eq_true, h1], fun e => ?_⟩
    by_cases h : res.2 = true
    · rw [if_pos h]; simp [RState.printError, h1.1 h]
    · rw [if_neg h]; simp [← h1, h]
  have hall : ∀ (acc : RState × List Str × Bool),
      ((args.foldl (findStep env g) acc).2.2 = true ↔
        acc.2.2 = true ∨ ∃ arg ∈ args, env.path (splitParseAs arg).2 = .cannotOpen) ∧
      ∀ e, e ∈ (args.foldl (findStep env g) acc).1.events ↔ e ∈ acc.1.events ∨ ∃ arg ∈ args,
        env.path (splitParseAs arg).2 = .cannotOpen ∧ e = .error (.badPath (splitParseAs arg).2) := by
    induction args with
    | nil => intro acc; simp
    | cons a as ih =>
      intro acc
      rw [List.foldl_cons]
      obtain ⟨i1, i2⟩ := ih (findStep env g acc a)
      obtain ⟨s1, s2⟩ := hstep acc a
      refine ⟨by rw [i1, s1, or_assoc]; simp, fun e => ?_⟩
      rw [i2, s2, or_assoc]; simp
  have hasks : ∀ (arg : Str) (P : Str → Prop), (∃ parser path, Asks arg parser path ∧ P path) ↔ P (splitParseAs arg).2 := by
    intro arg P
    constructor
    · rintro ⟨a, b, h, hp⟩; rw [(asks_iff arg a b).1 h]; exact hp
    · intro h; exact ⟨_, _, (asks_iff arg _ _).2 rfl, h⟩
  obtain ⟨a1, a2⟩ := hall (r, [], false)
  refine ⟨?_, fun e => ?_⟩
  · rw [a1]
    simp only [Bool.false_eq_true, false_or, hg', ne_eq, not_false_eq_true, true_and]
    exact exists_congr fun arg => and_congr_right fun _ => (hasks arg fun p => env.path p = .cannotOpen).symm
  · rw [a2]
    simp only [hg', ne_eq, not_false_eq_true, true_and]
    exact or_congr_right (exists_congr fun arg => and_congr_right fun _ =>
      (hasks arg fun p => env.path p = .cannotOpen ∧ e = .error (.badPath p)).symm)

/-- Every result of a run is about a discovered file, parsed as asked. -/
theorem C34_run (S : Sorter) (env : Env) (f : Flags) (hs : Started f (run S env f).events) (hg : f.parseAs ≠ csvRowName)
    (r : Result) (hr : r ∈ shown (run S env f).events) :
    ∃ want q, Discovers env f.parseAs f.args want q ∧ (lockfileOf r).filePath = q ∧ (lockfileOf r).parsedAs = parserOf want q := by
  obtain ⟨p, hp⟩ := started_go S env f hs
  obtain ⟨hb, hfiles⟩ := readOf_files S env f p hp
  have hm : lockfileOf r ∈ ((readOf S env f).files.filter fun x => !x.err).map (·.lockf) := by
    rw [← shown_lockfiles S env f hs]
    exact List.mem_map.2 ⟨r, hr, rfl⟩
  obtain ⟨x, hx, hxe⟩ := List.mem_map.1 hm
  obtain ⟨hx, hxerr⟩ := List.mem_filter.1 hx
  have hxerr : x.err = false := by simpa using hxerr
  have : (x.lockf, x.err) ∈ (readOf S env f).files.map (fun x => (x.lockf, x.err)) := List.mem_map.2 ⟨x, hx, rfl⟩
  rw [hfiles] at this
  obtain ⟨path, hpath, he⟩ := List.mem_map.1 this
  obtain ⟨want, q, rfl, hd⟩ := (mem_found env _ f.args _ hg _).1 hpath
  have hw := discovers_colon (badParseAs_false f hb) hd
  refine ⟨want, q, hd, ?_⟩
  rw [← hxe]
  have hpl : parseLockfile S env (want ++ ':' :: q) f.args = (x.lockf, false) := by
    rw [hxerr] at he
    unfold entryOf at he
    split at he
    · split at he
      · cases (Prod.mk.inj he).2
      · exact he
    · exact he
  rw [C33_parsed S env f.args want q hw] at hpl
  split at hpl
  · rename_i hc
    rw [← (Prod.mk.inj hpl).1]
    exact ⟨rfl, by rw [hc]; rfl⟩
  · split at hpl
    · rename_i hc
      split at hpl
      · cases (Prod.mk.inj hpl).2
      · rw [← (Prod.mk.inj hpl).1]
        exact ⟨rfl, by rw [hc]; rfl⟩
    · split at hpl
      · rw [← (Prod.mk.inj hpl).1]
        exact ⟨rfl, rfl⟩
      · cases (Prod.mk.inj hpl).2

/-! ### Non-vacuity -/

/-- Directory `d` has a subdirectory `x`, which is skipped. -/
example : sampleEnv.path g!"d" = .dir [(g!"yarn.lock", false), (g!"x", true), (g!"go.mod", false)] ∧
    (findLockfiles sampleEnv g!"d" []).1 = [g!"d/go.mod", g!"d/yarn.lock"] := by decide

end Osv
