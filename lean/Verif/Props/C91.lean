import Verif.Lemmas.Disk
import Verif.Props.C41
/-! # C91: paths stand for the files that the operating system means by them -/
namespace Osv
open Str Spec

variable {α : Type} {D : Disk α}

/-- Cleaning a path does not change which file it stands for. -/
theorem C91_clean (hT : Tree D) (cwd : α) (p : Str) (n : α) (h : Opens D cwd p n) : Opens D cwd (Path.clean p) n :=
  Disk.clean_opens hT h

/-- A cleaned path is as short as it can be: the current directory, or names below the root, or names below some parent. -/
theorem C91_shortest (p : Str) :
    Path.clean p = g!"." ∨ (∃ ps, (∀ x ∈ ps, EntryName x ∧ '/' ∉ x) ∧ Path.clean p = '/' :: join g!"/" ps) ∨
    ∃ n ps, (∀ x ∈ ps, EntryName x ∧ '/' ∉ x) ∧ List.replicate n g!".." ++ ps ≠ [] ∧
      Path.clean p = join g!"/" (List.replicate n g!".." ++ ps) := by
  rcases Disk.rooted_or p with ⟨r, rfl⟩ | hrel
  · right; left
    obtain ⟨t, ht, et⟩ := Disk.clean_rooted r
    obtain ⟨n, ps, e, hn, hp⟩ := Path.cleanComps_normal true (splitChar '/' ('/' :: r)) [] (Disk.empty_stack _)
    have hs := Path.not_slash_cleanComps true ('/' :: r)
    rw [hn rfl] at e
    rw [List.replicate_zero, List.nil_append] at e
    rw [e] at et hs
    exact ⟨ps, fun x hx => ⟨hp x hx, hs x hx⟩, by rw [ht, et]⟩
  · by_cases h0 : p = []
    · subst h0; left; decide
    · rw [Disk.clean_relative h0 hrel]
      obtain ⟨n, ps, e, _, hp⟩ := Path.cleanComps_normal false (splitChar '/' p) [] (Disk.empty_stack _)
      have hs := Path.not_slash_cleanComps false p
      by_cases hc : Path.cleanComps false [] (splitChar '/' p) = []
      · left; rw [if_pos hc]
      · right; right
        rw [if_neg hc]
        exact ⟨n, ps, fun x hx => ⟨hp x hx, hs x (by rw [e]; simp [hx])⟩, e ▸ hc, by rw [e]⟩

/-- Every file that is checked is the one that an argument stands for or an entry of the directory that an argument stands for, and
it is parsed according to its name in that directory. -/
theorem C91_found (hT : Tree D) {cwd : α} {conf : α → ConfigFile} {env : Env} (hS : Sees D cwd conf env) (global : Str)
    (args : List Str) (want q : Str) (h : Discovers env global args want q) :
    ∃ d name n, Leads D cwd q d name n ∧ parserOf want q = (if want = [] then name else want) ∧
      ∃ arg parser path, arg ∈ args ∧ Asks arg parser path ∧ want = wantedParser global parser ∧
        (Leads D cwd path d name n ∨ (Opens D cwd path d ∧ D.isDir d)) := by
  have hparser : ∀ {q d name n}, Leads D cwd q d name n → parserOf want q = if want = [] then name else want := by
    intro q d name n hq
    unfold parserOf
    rw [Disk.base_leads hq]
  cases h with
  | file arg parser path mem asks isFile =>
    obtain ⟨n, ho, hf⟩ := hS.file path isFile
    obtain ⟨d, name, hl⟩ := Disk.leads_of_file hT ho hf
    have hq := Disk.clean_leads hT hl
    exact ⟨d, name, n, hq, hparser hq, arg, parser, path, mem, asks, rfl, Or.inl hl⟩
  | entry arg parser path name entries mem asks isDir isEntry known =>
    obtain ⟨d, ho, hd, hall⟩ := hS.dir path entries isDir
    obtain ⟨hn, hs, n, hc⟩ := hall name isEntry
    have hq := Disk.clean_leads hT (Disk.join2_leads hT ho (Disk.name_relative hs) (Disk.entry_leads hd hn hs hc))
    exact ⟨d, name, n, hq, hparser hq, arg, parser, path, mem, asks, rfl, Or.inr ⟨ho, hd⟩⟩

/-- The config at the path that the program makes for the directory `a`. -/
theorem config_ok (hT : Tree D) {cwd : α} {conf : α → ConfigFile} {env : Env} (hS : Sees D cwd conf env) {a name : Str} {d : α}
    (ha : Opens D cwd a d) (hd : D.isDir d) (hn : EntryName name) (hs : '/' ∉ name) (raw : RawConfig) :
    env.config (Path.clean (a ++ '/' :: name)) = .ok raw ↔ ∃ k, D.child d name = some k ∧ conf k = .ok raw := by
  constructor
  · intro h
    cases hc : D.child d name with
    | none =>
      rw [hS.missing _ fun n hn' => by
        rw [Disk.opens_clean_entry hT ha hd hn hs, hc] at hn'
        cases hn'] at h
      cases h
    | some k =>
      rw [hS.config _ k ((Disk.opens_clean_entry hT ha hd hn hs k).2 hc)] at h
      exact ⟨k, rfl, h⟩
  · rintro ⟨k, hc, h⟩
    rw [hS.config _ k ((Disk.opens_clean_entry hT ha hd hn hs k).2 hc), h]

theorem config_missing (hT : Tree D) {cwd : α} {conf : α → ConfigFile} {env : Env} (hS : Sees D cwd conf env) {a name : Str} {d : α}
    (ha : Opens D cwd a d) (hd : D.isDir d) (hn : EntryName name) (hs : '/' ∉ name) :
    env.config (Path.clean (a ++ '/' :: name)) = .missing ↔ ∀ k, D.child d name = some k → conf k = .missing := by
  constructor
  · intro h k hc
    rw [← h, hS.config _ k ((Disk.opens_clean_entry hT ha hd hn hs k).2 hc)]
  · intro h
    cases hc : D.child d name with
    | none =>
      exact hS.missing _ fun n hn' => by
        rw [Disk.opens_clean_entry hT ha hd hn hs, hc] at hn'
        cases hn'
    | some k => rw [hS.config _ k ((Disk.opens_clean_entry hT ha hd hn hs k).2 hc), h k hc]

/-- Without `--config`, the config of a lockfile is the one in the directory that holds the lockfile. -/
theorem C91_config (hT : Tree D) {cwd : α} {conf : α → ConfigFile} {env : Env} (hS : Sees D cwd conf env) (f : Flags)
    (hf : f.noConfig = false) (hc : f.configPath = []) (q name : Str) (d n : α) (hq : Leads D cwd q d name n) (raw : RawConfig) :
    (∃ path, ConfigFor env f q path raw) ↔ ConfigIn D conf d raw := by
  have hd : D.isDir d := by obtain ⟨_, _, _, _, h, _⟩ := hq; exact h
  have ho := Disk.dir_opens hT hq
  have n1 : EntryName g!".osv-detector.yml" := ⟨by decide, by decide, by decide⟩
  have n2 : EntryName g!".osv-detector.yaml" := ⟨by decide, by decide, by decide⟩
  have ok1 := config_ok hT hS ho hd n1 (by decide) raw
  have ok2 := config_ok hT hS ho hd n2 (by decide) raw
  have mi1 := config_missing hT hS ho hd n1 (by decide)
  constructor
  · rintro ⟨path, h⟩
    cases h with
    | explicit _ _ given _ => exact absurd hc given
    | yml _ _ _ ok => exact Or.inl (ok1.1 ok)
    | yaml _ _ _ noYml ok => exact Or.inr ⟨mi1.1 noYml, ok2.1 ok⟩
  · rintro (h | ⟨h1, h2⟩)
    · exact ⟨_, .yml raw hf hc (ok1.2 h)⟩
    · exact ⟨_, .yaml raw hf hc (mi1.2 h1) (ok2.2 h2)⟩

/-- Which vulnerabilities are ignored for a lockfile. -/
theorem C91_ignored (hT : Tree D) {cwd : α} {conf : α → ConfigFile} {env : Env} (hS : Sees D cwd conf env) (f : Flags)
    (hc : f.configPath = []) (q name : Str) (d n : α) (hq : Leads D cwd q d name n) (id : Str) :
    Excused env f q id ↔ id ∈ f.globalIgnores ∨
      (f.noConfigIgnores = false ∧ f.noConfig = false ∧ ∃ raw, ConfigIn D conf d raw ∧ id ∈ raw.ignore) := by
  unfold Excused
  constructor
  · rintro (h | ⟨h1, path, raw, h2, h3⟩)
    · exact Or.inl h
    · have hf : f.noConfig = false := by cases h2 <;> assumption
      exact Or.inr ⟨h1, hf, raw, (C91_config hT hS f hf hc q name d n hq raw).1 ⟨path, h2⟩, h3⟩
  · rintro (h | ⟨h1, hf, raw, h2, h3⟩)
    · exact Or.inl h
    · obtain ⟨path, hp⟩ := (C91_config hT hS f hf hc q name d n hq raw).2 h2
      exact Or.inr ⟨h1, path, raw, hp, h3⟩

/-- With `--config`, it is the file that the flag stands for. -/
theorem C91_given_config (hT : Tree D) {cwd : α} {conf : α → ConfigFile} {env : Env} (hS : Sees D cwd conf env) (f : Flags)
    (k : α) (hc : Opens D cwd f.configPath k) (q id : Str) :
    Excused env f q id ↔ id ∈ f.globalIgnores ∨
      (f.noConfigIgnores = false ∧ f.noConfig = false ∧ ∃ raw, conf k = .ok raw ∧ id ∈ raw.ignore) := by
  have e := hS.config _ k (Disk.clean_opens hT hc)
  unfold Excused
  constructor
  · rintro (h | ⟨h1, path, raw, h2, h3⟩)
    · exact Or.inl h
    · cases h2 with
      | explicit _ hf _ ok => exact Or.inr ⟨h1, hf, raw, e ▸ ok, h3⟩
      | yml _ _ h _ => exact absurd h hc.1
      | yaml _ _ h _ _ => exact absurd h hc.1
  · rintro (h | ⟨h1, hf, raw, h2, h3⟩)
    · exact Or.inl h
    · exact Or.inr ⟨h1, _, raw, .explicit raw hf hc.1 (e.trans h2), h3⟩

/-- Files that a requirements file includes by relative paths are followed, wherever they are. -/
theorem includes_reach (hT : Tree D) {cwd : α} {content : α → Option Str} {fs : Str → Option Str}
    (hfs : ∀ p n, Opens D cwd p n → fs p = content n) {path name : Str} {d0 n0 : α} (h0 : Leads D cwd path d0 name n0) {d n : α}
    (h : FilesReach D content Relative d0 n0 d n) : ∃ q name, IncludeReach fs path q ∧ Leads D cwd q d name n := by
  induction h with
  | root => exact ⟨path, name, .root, h0⟩
  | @step d n d' n' ar _ hrel hi ih =>
    obtain ⟨q, nm, hq, hl⟩ := ih
    obtain ⟨⟨text, js, j, h1, h2, h3, h4⟩, name', hl'⟩ := hi
    refine ⟨_, name', .step hq ⟨ar, ⟨text, js, j, ?_, h2, h3, h4⟩, rfl⟩, Disk.join2_leads hT (Disk.dir_opens hT hl) hrel hl'⟩
    rw [hfs q n (Disk.leads_opens hl), h1]

/-- What a requirements file with its includes asks for, in terms of files. -/
def AsksFor {α : Type} (D : Disk α) (content : α → Option Str) (ok : Str → Prop) (d0 n0 : α) (p : PackageDetails) : Prop :=
  ∃ d n t, FilesReach D content ok d0 n0 d n ∧ LineOf content n t ∧ RequirementLine t ∧ ReqEntry t p

/-- The full claim. It is false because an absolute path is taken as a relative one: see `C91_counterexample`. -/
def C91_full : Prop := ∀ (α : Type) (D : Disk α) (_ : Tree D) (cwd : α) (content : α → Option Str) (fs : Str → Option Str)
  (_ : ∀ p n, Opens D cwd p n → fs p = content n) (order : Str → List Str → List PackageDetails → List PackageDetails)
  (_ : ∀ p r l, (order p r l).Perm l) (path name : Str) (d0 n0 : α) (_ : Leads D cwd path d0 name n0) (depth : Nat)
  (ds : List PackageDetails) (_ : parseRequirementsTxt fs order depth path = some (some ds)) (p : PackageDetails)
  (_ : AsksFor D content (fun _ => True) d0 n0 p), ∃ p' ∈ ds, detailKey p' = detailKey p

/-- Every package that is asked for by a requirements file or a file that it includes is reported. Missing for the full claim:
files must be included by relative paths. -/
theorem C91_requirements_partial (hT : Tree D) (cwd : α) (content : α → Option Str) (fs : Str → Option Str)
    (hfs : ∀ p n, Opens D cwd p n → fs p = content n) (order : Str → List Str → List PackageDetails → List PackageDetails)
    (ho : ∀ p r l, (order p r l).Perm l) (path name : Str) (d0 n0 : α) (h0 : Leads D cwd path d0 name n0) (depth : Nat)
    (ds : List PackageDetails) (h : parseRequirementsTxt fs order depth path = some (some ds)) (p : PackageDetails)
    (hp : AsksFor D content Relative d0 n0 p) : ∃ p' ∈ ds, detailKey p' = detailKey p := by
  obtain ⟨d, n, t, hr, ⟨text, js, j, h1, h2, h3, h4⟩, ht, he⟩ := hp
  obtain ⟨q, nm, hq, hl⟩ := includes_reach hT hfs h0 hr
  refine (requirements_ok ho h).2.1 q p hq ⟨t, ⟨text, js, j, ?_, h2, h3, h4⟩, ht, he⟩
  rw [hfs q n (Disk.leads_opens hl), h1]

/-- A disk given by its directories and entries; the root is 0. -/
def listDisk (dirs : List Nat) (entries : List (Nat × Str × Nat)) : Disk Nat where
  root := 0
  isDir n := n ∈ dirs
  up n := ((entries.find? fun e => e.2.2 == n).map (·.1)).getD 0
  child d name := (entries.find? fun e => e.1 == d && e.2.1 == name).map (·.2.2)

instance (dirs : List Nat) (entries : List (Nat × Str × Nat)) (n : Nat) : Decidable ((listDisk dirs entries).isDir n) :=
  inferInstanceAs (Decidable (n ∈ dirs))

theorem listDisk_tree (dirs : List Nat) (entries : List (Nat × Str × Nat)) (h0 : 0 ∈ dirs) (h1 : ∀ e ∈ entries, e.1 ∈ dirs ∧ e.2.2 ≠ 0)
    (h2 : ∀ e ∈ entries, e.2.2 ∈ dirs → (listDisk dirs entries).up e.2.2 = e.1) : Tree (listDisk dirs entries) where
  root_dir := h0
  root_up := by
    have : entries.find? (fun e => e.2.2 == 0) = none := by
      rw [List.find?_eq_none]
      intro e he
      simpa using (h1 e he).2
    simp [listDisk, this]
  up_dir := by
    intro d _
    simp only [listDisk]
    cases h : entries.find? (fun e => e.2.2 == d) with
    | none => exact h0
    | some e => exact (h1 e (List.mem_of_find?_eq_some h)).1
  child_up := by
    intro d name k _ h hk
    simp only [listDisk] at h
    obtain ⟨e, he, rfl⟩ := Option.map_eq_some_iff.1 h
    have := List.find?_some he
    simp only [Bool.and_eq_true, beq_iff_eq] at this
    rw [h2 e (List.mem_of_find?_eq_some he) hk, this.1]

/-- Following a path, as a function. -/
def follow (dirs : List Nat) (entries : List (Nat × Str × Nat)) : Nat → List Str → Option Nat
  | n, [] => some n
  | n, c :: cs =>
    if n ∈ dirs then
      if c = [] ∨ c = g!"." then follow dirs entries n cs
      else if c = g!".." then follow dirs entries ((listDisk dirs entries).up n) cs
      else ((listDisk dirs entries).child n c).bind fun k => follow dirs entries k cs
    else none

theorem follow_of_walk {dirs : List Nat} {entries : List (Nat × Str × Nat)} {n m : Nat} {ps : List Str}
    (h : Walk (listDisk dirs entries) n ps m) : follow dirs entries n ps = some m := by
  induction h with
  | done => rfl
  | stay h1 h2 _ ih =>
    unfold follow
    rw [if_pos (show _ ∈ dirs from h1), if_pos h2, ih]
  | up h1 _ ih =>
    unfold follow
    rw [if_pos (show _ ∈ dirs from h1), if_neg (by simp), if_pos rfl, ih]
  | down h1 h2 h3 _ ih =>
    unfold follow
    rw [if_pos (show _ ∈ dirs from h1), if_neg (by simp [h2.1, h2.2.1]), if_neg h2.2.2, h3]
    exact ih

theorem walk_of_follow {dirs : List Nat} {entries : List (Nat × Str × Nat)} {n m : Nat} {ps : List Str}
    (h : follow dirs entries n ps = some m) : Walk (listDisk dirs entries) n ps m := by
  induction ps generalizing n with
  | nil => cases h; exact .done _
  | cons c cs ih =>
    unfold follow at h
    by_cases hd : n ∈ dirs
    · rw [if_pos hd] at h
      by_cases h1 : c = [] ∨ c = g!"."
      · rw [if_pos h1] at h; exact .stay hd h1 (ih h)
      · rw [if_neg h1] at h
        by_cases h2 : c = g!".."
        · subst h2; rw [if_pos rfl] at h; exact .up hd (ih h)
        · rw [if_neg h2] at h
          obtain ⟨k, hk, h⟩ := Option.bind_eq_some_iff.1 h
          exact .down hd ⟨fun e => h1 (.inl e), fun e => h1 (.inr e), h2⟩ hk (ih h)
    · rw [if_neg hd] at h; cases h

theorem opens_iff {dirs : List Nat} {entries : List (Nat × Str × Nat)} {cwd : Nat} (p : Str) (n : Nat) :
    Opens (listDisk dirs entries) cwd p n ↔
      p ≠ [] ∧ follow dirs entries (start (listDisk dirs entries) cwd p) (splitChar '/' p) = some n := by
  constructor
  · rintro ⟨h0, ps, h1, h2⟩
    exact ⟨h0, by rw [Disk.seg.1 h1]; exact follow_of_walk h2⟩
  · rintro ⟨h0, h⟩
    exact ⟨h0, _, Disk.seg.2 rfl, walk_of_follow h⟩

/-- The files of a disk, by path. -/
def diskFiles (dirs : List Nat) (entries : List (Nat × Str × Nat)) (cwd : Nat) (content : Nat → Option Str) (p : Str) : Option Str :=
  (follow dirs entries (start (listDisk dirs entries) cwd p) (splitChar '/' p)).bind content

theorem diskFiles_opens {dirs : List Nat} {entries : List (Nat × Str × Nat)} {cwd : Nat} {content : Nat → Option Str} (p : Str) (n : Nat)
    (h : Opens (listDisk dirs entries) cwd p n) : diskFiles dirs entries cwd content p = content n := by
  obtain ⟨_, ps, h1, h2⟩ := h
  unfold diskFiles
  rw [Disk.seg.1 h1, follow_of_walk h2]
  rfl

/-- `/p/r.txt` includes `/x.txt` and `../y.txt`; there is also a `/p/x.txt`. -/
def absEntries : List (Nat × Str × Nat) := [(0, g!"p", 1), (0, g!"x.txt", 2), (0, g!"y.txt", 5), (1, g!"r.txt", 3), (1, g!"x.txt", 4)]

def absContent (n : Nat) : Option Str :=
  if n = 3 then some g!"-r /x.txt\n-r ../y.txt\n" else if n = 2 then some g!"foo==1\n" else if n = 4 then some g!"bar==1\n" else
  if n = 5 then some g!"baz==2\n" else none

theorem absTree : Tree (listDisk [0, 1] absEntries) := listDisk_tree _ _ (by decide) (by decide) (by decide)

theorem absRoot : Leads (listDisk [0, 1] absEntries) 1 g!"r.txt" 1 g!"r.txt" 3 :=
  ⟨[], Disk.seg.2 (by decide), ⟨by decide, by decide, by decide⟩, .done _, by decide, by decide⟩

theorem absParse : parseRequirementsTxt (diskFiles [0, 1] absEntries 1 absContent) (fun _ _ l => l) 4 g!"r.txt" =
    some (some [pypi g!"bar" g!"1", pypi g!"baz" g!"2"]) := by decide +kernel

theorem absLine {n : Nat} {text t : Str} {raw : Str} (h : absContent n = some text) (hm : raw ∈ joinLines (Scanner.scan text).1)
    (ht : removeComments raw = t) : LineOf absContent n t := by
  obtain ⟨content, js, j, h1, h2, h3, h4⟩ := (Pip.fileLine_iff (fs := fun _ => absContent n) (p := []) h t).2 ⟨raw, hm, ht⟩
  exact ⟨content, js, j, h1, h2, h3, h4⟩

theorem reqLine {t : Str} {p : PackageDetails} (h : isNotRequirementLine t = false) (hp : parseRequirement t = p) :
    RequirementLine t ∧ ReqEntry t p :=
  ⟨(Pip.requirementLine_iff _).1 h, hp ▸ Pip.parse_entry _⟩

/-- The included file is not read, and another one is. -/
theorem C91_counterexample : ¬ C91_full := by
  intro h
  obtain ⟨h1, h2⟩ := reqLine (t := g!"foo==1") (p := pypi g!"foo" g!"1") (by decide) (by decide +kernel)
  obtain ⟨p', hp, e⟩ := h Nat _ absTree 1 absContent (diskFiles [0, 1] absEntries 1 absContent) diskFiles_opens (fun _ _ l => l)
    (fun _ _ _ => List.Perm.refl _) g!"r.txt" g!"r.txt" 1 3 absRoot 4 _ absParse (pypi g!"foo" g!"1")
    ⟨0, 2, g!"foo==1", .step (path := g!"/x.txt") .root trivial ⟨absLine (n := 3) (text := g!"-r /x.txt\n-r ../y.txt\n") (raw := g!"-r /x.txt") (by decide)
      (by decide +kernel) (by decide +kernel), g!"x.txt", [[]], Disk.seg.2 (by decide), ⟨by decide, by decide, by decide⟩,
        .stay (by decide) (Or.inl rfl) (.done _), by decide, by decide⟩,
      absLine (n := 2) (text := g!"foo==1\n") (raw := g!"foo==1") (by decide) (by decide +kernel) (by decide +kernel), h1, h2⟩
  revert e
  revert p'
  decide

/-- The hypotheses of `C91_requirements_partial` can be met, with a file that is included from another directory. -/
example : Leads (listDisk [0, 1] absEntries) 1 g!"r.txt" 1 g!"r.txt" 3 ∧
    parseRequirementsTxt (diskFiles [0, 1] absEntries 1 absContent) (fun _ _ l => l) 4 g!"r.txt" =
      some (some [pypi g!"bar" g!"1", pypi g!"baz" g!"2"]) ∧
    AsksFor (listDisk [0, 1] absEntries) absContent Relative 1 3 (pypi g!"baz" g!"2") := by
  obtain ⟨h1, h2⟩ := reqLine (t := g!"baz==2") (p := pypi g!"baz" g!"2") (by decide) (by decide +kernel)
  refine ⟨absRoot, absParse, 0, 5, g!"baz==2", .step (path := g!"../y.txt") .root (by intro q e; cases e)
    ⟨absLine (n := 3) (text := g!"-r /x.txt\n-r ../y.txt\n") (raw := g!"-r ../y.txt") (by decide)
      (by decide +kernel) (by decide +kernel), g!"y.txt", [g!".."], Disk.seg.2 (by decide), ⟨by decide, by decide, by decide⟩,
        .up (by decide) (.done _), by decide, by decide⟩,
      absLine (n := 5) (text := g!"baz==2\n") (raw := g!"baz==2") (by decide) (by decide +kernel) (by decide +kernel), h1, h2⟩

/-- The same for links to directories: cleaning a path may change what it stands for. -/
def C91_links_full : Prop := ∀ (α : Type) (D : Disk α) (cwd : α) (p : Str) (n : α), D.isDir D.root → D.up D.root = D.root →
  (∀ d, D.isDir d → D.isDir (D.up d)) → Opens D cwd p n → Opens D cwd (Path.clean p) n

/-- `/link` stands for `/a/b`, so `/link/../x` is `/a/x` and not `/x`. -/
theorem C91_links_counterexample : ¬ C91_links_full := by
  intro h
  have hD := h Nat (listDisk [0, 1, 2] [(0, g!"a", 1), (1, g!"b", 2), (0, g!"link", 2), (1, g!"x", 3), (0, g!"x", 4)]) 0 g!"link/../x" 3
    (by decide) (by decide) (by
      intro d _
      simp only [listDisk]
      cases hf : List.find? (fun e : Nat × Str × Nat => e.2.2 == d)
          [(0, g!"a", 1), (1, g!"b", 2), (0, g!"link", 2), (1, g!"x", 3), (0, g!"x", 4)] with
      | none => decide
      | some e =>
        have := List.mem_of_find?_eq_some hf
        clear hf
        revert e
        decide)
    ⟨by decide, [g!"link", g!"..", g!"x"], Disk.seg.2 (by decide), .down (k := 2) (by decide) ⟨by decide, by decide, by decide⟩ (by decide)
      (.up (by decide) (.down (k := 3) (by decide) ⟨by decide, by decide, by decide⟩ (by decide) (.done _)))⟩
  obtain ⟨_, ps, h1, h2⟩ := hD
  have e : Path.clean g!"link/../x" = g!"x" := by decide
  rw [e] at h1 h2
  have := follow_of_walk h2
  rw [← Disk.seg.1 h1] at this
  revert this
  decide

def seenEntries : List (Nat × Str × Nat) := [(0, g!"go.mod", 1), (0, g!".osv-detector.yml", 2)]

def seenConfig (n : Nat) : ConfigFile := if n = 2 then .ok {} else .unreadable

def seenEnv : Env where
  path p := if p = g!"." then .dir [(g!"go.mod", false), (g!".osv-detector.yml", false)] else if p = g!"./go.mod" then .file else .cannotOpen
  config p :=
    if p = [] then .missing
    else match follow [0] seenEntries (start (listDisk [0] seenEntries) 0 p) (splitChar '/' p) with
      | some n => seenConfig n
      | none => .missing
  validURL _ := true
  parse _ _ := ([], false)
  csvFile _ := none
  csvRows _ := ([], true)
  load _ _ _ _ := (none, false)
  update _ := .complete
  iter l := l

/-- The hypotheses of `C91_found` and `C91_config` can be met. -/
example : Tree (listDisk [0] seenEntries) ∧ Sees (listDisk [0] seenEntries) 0 seenConfig seenEnv ∧
    Discovers seenEnv [] [g!"."] [] g!"go.mod" ∧ ConfigIn (listDisk [0] seenEntries) seenConfig 0 {} := by
  refine ⟨listDisk_tree _ _ (by decide) (by decide) (by decide), ⟨?_, ?_, ?_, ?_⟩,
    .entry g!"." [] g!"." g!"go.mod" _ (by simp) (Or.inl ⟨by decide, rfl, rfl⟩) rfl (by simp) (Or.inr (by decide)), Or.inl ⟨2, by decide, rfl⟩⟩
  · intro p hp
    simp only [seenEnv] at hp
    by_cases h : p = g!"."
    · rw [if_pos h] at hp; cases hp
    · rw [if_neg h] at hp
      by_cases h' : p = g!"./go.mod"
      · subst h'
        exact ⟨1, (opens_iff _ _).2 (by decide), by decide⟩
      · rw [if_neg h'] at hp; cases hp
  · intro p entries hp
    simp only [seenEnv] at hp
    by_cases h : p = g!"."
    · rw [if_pos h] at hp
      subst h
      cases hp
      refine ⟨0, (opens_iff _ _).2 (by decide), by decide, ?_⟩
      intro name hm
      rcases List.mem_cons.1 hm with e | hm
      · cases e; exact ⟨⟨by decide, by decide, by decide⟩, by decide, 1, by decide⟩
      · rcases List.mem_cons.1 hm with e | hm
        · cases e; exact ⟨⟨by decide, by decide, by decide⟩, by decide, 2, by decide⟩
        · cases hm
    · rw [if_neg h] at hp
      by_cases h' : p = g!"./go.mod"
      · rw [if_pos h'] at hp; cases hp
      · rw [if_neg h'] at hp; cases hp
  · intro p n h
    obtain ⟨h0, h⟩ := (opens_iff _ _).1 h
    simp only [seenEnv]
    rw [if_neg h0, h]
  · intro p h
    simp only [seenEnv]
    by_cases h0 : p = []
    · rw [if_pos h0]
    · rw [if_neg h0]
      cases hf : follow [0] seenEntries (start (listDisk [0] seenEntries) 0 p) (splitChar '/' p) with
      | none => rfl
      | some n => exact absurd ((opens_iff _ _).2 ⟨h0, hf⟩) (h n)

end Osv
