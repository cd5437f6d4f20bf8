import Verif.Spec.World
import Verif.Model.Config
import Verif.Lemmas.RequestURI
import Verif.Lemmas.Disk
import Verif.Props.C21
import Verif.Props.C91
/-! # C93: local databases are read from the directory in their URL -/
namespace Osv
open Str Spec

namespace Spec

/-- What is found at the places of a disk when walking from a path. -/
structure HoldsTrees {α : Type} (D : Disk α) (cwd : α) (node : α → FNode) (L : LoadEnv) : Prop where
  there : ∀ p n, Opens D cwd p n → L.tree p = node n
  missing : ∀ p, (∀ n, ¬ Opens D cwd p n) → L.tree p = .gone

/-- The path of the working directory, below `p`. -/
def below (p wd : Str) : Str := if wd = [] then p else if p = [] then wd else p ++ '/' :: wd

/-- The URL of a local database in the directory `p`: `file:/` with a relative path, or `file:///` with any path. -/
def LocalUrl (p url : Str) : Prop :=
  ∃ t, Spelled p t ∧ ((Relative p ∧ url = g!"file:/" ++ t) ∨ url = g!"file:///" ++ t)

end Spec

theorem localUrl_path {p url : Str} (h : LocalUrl p url) : Url.requestPath url = some ('/' :: p) := by
  obtain ⟨t, ht, ⟨hr, rfl⟩ | rfl⟩ := h
  · exact Url.path_one ht hr
  · exact Url.path_three ht

theorem localUrl_prefix {p url : Str} (h : LocalUrl p url) : ∃ u, url = g!"file:/" ++ u := by
  obtain ⟨t, _, ⟨_, rfl⟩ | rfl⟩ := h
  · exact ⟨t, rfl⟩
  · exact ⟨'/' :: '/' :: t, by simp⟩

theorem trim_slash (p : Str) : trimPrefix ('/' :: p) g!"/" = p := trimPrefix_append g!"/" p

/-- Such an entry of a config is used, as a local database. -/
theorem C93_config (d : RawDB) (p : Str) (h : LocalUrl p d.url) (ht : d.type = [] ∨ d.type = g!"dir") :
    ∃ c, d.toConfig Url.validRequest = .ok c ∧ c.type = g!"dir" ∧ c.url = d.url ∧ c.workingDirectory = d.workingDirectory := by
  have hv : Url.validRequest d.url = true := by
    have := localUrl_path h
    unfold Url.requestPath at this
    unfold Url.validRequest
    cases hp : Url.parseRequest d.url with
    | none => rw [hp] at this; cases this
    | some _ => rfl
  have hi : d.inferType = g!"dir" := by
    unfold RawDB.inferType
    rcases ht with ht | ht
    · rw [if_neg (by simp [ht]), if_pos]
      exact (hasPrefix_iff _ _).2 (localUrl_prefix h)
    · rw [if_pos (by simp [ht]), ht]
  unfold RawDB.toConfig
  rw [if_neg (by simp [hv])]
  dsimp only
  rw [hi, if_neg (by simp)]
  refine ⟨_, rfl, ?_, ?_, ?_⟩ <;> split <;> rfl

/-- The directory that is read is the one that the path stands for. -/
theorem join2_below {α : Type} {D : Disk α} (hT : Tree D) {cwd : α} {p wd : Str} {n : α} (hd : D.isDir n)
    (h : Opens D cwd (below p wd) n) : Opens D cwd (Path.join2 p wd) n := by
  unfold below at h
  unfold Path.join2
  by_cases hw : wd = []
  · rw [if_pos hw] at h
    rw [if_pos h.1, hw]
    apply Disk.clean_opens hT
    obtain ⟨h0, ps, h1, h2⟩ := h
    refine ⟨by simp, ps ++ [[]], ?_, ?_⟩
    · rw [Disk.seg] at h1 ⊢
      rw [show p ++ g!"/" ++ [] = p ++ '/' :: [] by simp, Disk.seg_concat, h1]
      rfl
    · have e : start D cwd (p ++ g!"/" ++ []) = start D cwd p := by
        unfold start
        cases p with
        | nil => exact absurd rfl h0
        | cons c p => rfl
      rw [e]
      exact Disk.walk_append.2 ⟨n, h2, .stay hd (Or.inl rfl) (.done n)⟩
  · rw [if_neg hw] at h
    by_cases hp : p = []
    · rw [if_pos hp] at h
      rw [if_neg (by simp [hp]), if_pos hw]
      exact Disk.clean_opens hT h
    · rw [if_neg hp] at h
      rw [if_pos hp, show p ++ g!"/" ++ wd = p ++ '/' :: wd by simp]
      exact Disk.clean_opens hT h

/-- The advisories of a local database are those in the files of the directory that its URL and the working directory stand for. -/
theorem C93_local {α : Type} {D : Disk α} (hT : Tree D) {cwd : α} {node : α → FNode} {L : LoadEnv} (hL : HoldsTrees D cwd node L)
    (hu : L.parseURI = Url.requestPath) (c : DBConfig) (hc : c.type = g!"dir") (p : Str) (h : LocalUrl p c.url) (n : α) (hd : D.isDir n)
    (hn : Opens D cwd (below p c.workingDirectory) n) (entries : FList) (he : node n = .dir entries) (offline : Bool) (o : OSV) :
    Published L c offline o ↔
      ∃ name text, (name, some text) ∈ filesIn entries ∧ JsonName name ∧ L.decode text = some o := by
  have hp := localUrl_path h
  have ht : L.tree (Path.join2 p c.workingDirectory) = .dir entries := by rw [hL.there _ _ (join2_below hT hd hn), he]
  constructor
  · intro hpub
    cases hpub with
    | zip body t es e text type => rw [hc] at type; exact absurd type (by decide)
    | dir path name text type uri mem json decoded =>
      rw [hu, hp] at uri
      cases uri
      rw [trim_slash, ht] at mem
      exact ⟨name, text, mem, json, decoded⟩
  · rintro ⟨name, text, mem, json, decoded⟩
    refine .dir ('/' :: p) name text hc (by rw [hu, hp]) ?_ json decoded
    rw [trim_slash, ht]
    exact mem

/-- Loading it succeeds exactly if no entry vanishes meanwhile. -/
theorem C93_loads {α : Type} {D : Disk α} (hT : Tree D) {cwd : α} {node : α → FNode} {L : LoadEnv} (hL : HoldsTrees D cwd node L)
    (hu : L.parseURI = Url.requestPath) (c : DBConfig) (p : Str) (h : LocalUrl p c.url) (n : α) (hd : D.isDir n)
    (hn : Opens D cwd (below p c.workingDirectory) n) (names : List Str) :
    (∃ ld, newDirDB L c names = .ok ld) ↔ ¬ Vanished (node n) := by
  have hp := localUrl_path h
  have ht : L.tree (Path.join2 p c.workingDirectory) = node n := hL.there _ _ (join2_below hT hd hn)
  obtain ⟨u, hx⟩ := localUrl_prefix h
  have hf : hasPrefix c.url g!"file:" = true := (hasPrefix_iff _ _).2 ⟨'/' :: u, by rw [hx]; simp⟩
  unfold newDirDB
  rw [hf, hu, hp]
  dsimp only
  rw [trim_slash, ht]
  have := walkNode_spec L.decode names (Path.base (Path.join2 p c.workingDirectory)) (node n) {}
  constructor
  · rintro ⟨ld, h⟩ hv
    rw [this.1 hv] at h
    simp at h
  · intro hv
    obtain ⟨s', h1, _⟩ := this.2 hv
    rw [h1]
    exact ⟨_, rfl⟩

/-- The full claim: whatever the number of slashes, the directory is the one that is named after them. -/
def C93_full : Prop :=
  ∀ (L : LoadEnv), L.parseURI = Url.requestPath → ∀ (c : DBConfig) (p t : Str) (k : Nat), c.type = g!"dir" → Spelled p t → Relative p →
    c.url = g!"file:" ++ List.replicate k '/' ++ t → ∀ o, Published L c false o →
    ∃ m name text, (name, some text) ∈ files (Path.base (Path.join2 (List.replicate m '/' ++ p) c.workingDirectory))
        (L.tree (Path.join2 (List.replicate m '/' ++ p) c.workingDirectory)) ∧
      JsonName name ∧ L.decode text = some o

/-- It holds with one slash, and with three or more. Missing: no slash and two slashes. -/
theorem C93_slashes_partial (L : LoadEnv) (hu : L.parseURI = Url.requestPath) (c : DBConfig) (p t : Str) (k : Nat) (hc : c.type = g!"dir")
    (ht : Spelled p t) (hp : Relative p) (h : c.url = g!"file:" ++ List.replicate k '/' ++ t) (hk : k ≠ 0) (hk2 : k ≠ 2) (o : OSV)
    (hpub : Published L c false o) :
    ∃ m name text, (name, some text) ∈ files (Path.base (Path.join2 (List.replicate m '/' ++ p) c.workingDirectory))
        (L.tree (Path.join2 (List.replicate m '/' ++ p) c.workingDirectory)) ∧
      JsonName name ∧ L.decode text = some o := by
  have hl : ∃ m, LocalUrl (List.replicate m '/' ++ p) c.url := by
    by_cases h1 : k = 1
    · subst h1
      exact ⟨0, t, ht, Or.inl ⟨hp, by rw [h]; rfl⟩⟩
    · refine ⟨k - 3, List.replicate (k - 3) '/' ++ t, ?_, Or.inr ?_⟩
      · refine Url.spelled_append ?_ ht
        generalize k - 3 = m
        induction m with
        | zero => exact .nil
        | succ m ih => exact Url.slash_spelled ih
      · rw [h]
        obtain ⟨m, rfl⟩ : ∃ m, k = m + 3 := ⟨k - 3, by omega⟩
        simp [List.replicate_succ]
  obtain ⟨m, hl⟩ := hl
  cases hpub with
  | zip body t es e text type => rw [hc] at type; exact absurd type (by decide)
  | dir path name text type uri mem json decoded =>
    rw [hu, localUrl_path hl] at uri
    cases uri
    rw [trim_slash] at mem
    exact ⟨m, name, text, mem, json, decoded⟩

/-- A file system with an advisory in the directory `npm`, and no directory `advisories`. -/
def twoSlashes : LoadEnv where
  fetch := fun _ _ _ => .panic
  unzip := fun _ => none
  decode := fun t => if t = g!"{}" then some { id := g!"A" } else none
  parseURI := Url.requestPath
  tree := fun p => if p = g!"npm" then .dir (.cons g!"a.json" (.file (some g!"{}")) .nil) else .gone

/-- `file://advisories/npm` is read from the directory `npm`: the first element counts as the name of a host. -/
theorem C93_counterexample : ¬ C93_full := by
  intro h
  obtain ⟨m, name, text, h1, _, _⟩ := h twoSlashes rfl ⟨[], g!"dir", g!"file://advisories/npm", []⟩ g!"advisories/npm" g!"advisories/npm" 2 rfl
    (spelled_self _ (by decide)) (by intro q hq; cases hq) rfl { id := g!"A" }
    (.dir g!"/npm" g!"a.json" g!"{}" rfl (by decide +kernel) (by decide +kernel) ⟨g!"a", rfl⟩ (by decide +kernel))
  have e : Path.join2 (List.replicate m '/' ++ g!"advisories/npm") [] ≠ g!"npm" := by
    cases m with
    | zero => decide +kernel
    | succ m =>
      unfold Path.join2 Path.clean
      rw [if_pos (by simp), if_neg (by simp), if_pos (by simp [List.replicate_succ])]
      simp
  dsimp only [twoSlashes] at h1
  rw [if_neg e] at h1
  cases h1

/-- Without a slash nothing of the path is used. -/
example : Url.requestPath g!"file:advisories/npm" = some [] := by decide +kernel

/-! ### Non-vacuity -/

/-- The URLs of the documentation. -/
example : LocalUrl g!"../relative/path/to/dir" g!"file:/../relative/path/to/dir" ∧
    LocalUrl g!"/root/path/to/dir" g!"file:////root/path/to/dir" :=
  ⟨⟨_, spelled_self _ (by decide), Or.inl ⟨(by intro q hq; cases hq), rfl⟩⟩, ⟨_, spelled_self _ (by decide), Or.inr rfl⟩⟩

/-- A directory with a question mark and a space. -/
example : LocalUrl g!"a ?" g!"file:/a%20%3f" :=
  ⟨g!"a%20%3f", .plain (by unfold UrlChar; decide)
    (.coded (t := g!"%20") (.byte (Or.inl rfl) (Or.inl rfl) .nil) (.coded (t := g!"%3f") (u := []) (.byte (Or.inl rfl) (Or.inl rfl) .nil) .nil)),
    Or.inl ⟨(by intro q hq; cases hq), rfl⟩⟩

/-- A disk with `/w` as the current directory and `/db/npm`. -/
example : Opens (listDisk [0, 1, 2, 3] [(0, g!"w", 1), (0, g!"db", 2), (2, g!"npm", 3)]) 1 (below g!"../db" g!"npm") 3 :=
  ⟨by decide, [g!"..", g!"db", g!"npm"], Disk.seg.2 (by decide), walk_of_follow (by decide)⟩

end Osv
