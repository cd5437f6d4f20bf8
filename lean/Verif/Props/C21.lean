import Verif.Spec.Load
import Verif.Lemmas.Str
/-!
# C21 Directory databases load every readable advisory

The full statement is `C21_full`; it is false, because an entry that vanishes between being listed and being
examined ends the walk with an error.
-/
namespace Osv
open Spec

/-- The advisories that should be loaded: those of the readable, well-formed `.json` files, in walk order. -/
def Spec.readable (decode : Str → Option OSV) (fs : List (Str × Option Str)) : List OSV :=
  fs.filterMap fun f => if Str.hasSuffix f.1 g!".json" then f.2.bind decode else none

/-- The full statement: the load fails only if the root itself is unreadable, and otherwise loads exactly the
readable advisories. -/
def C21_full : Prop :=
  ∀ (env : LoadEnv) (c : DBConfig) (names : List Str) (path : Str),
    Str.hasPrefix c.url g!"file:" = true → env.parseURI c.url = some path →
    let root := Path.join2 (Str.trimPrefix path g!"/") c.workingDirectory
    env.tree root ≠ .gone →
    newDirDB env c names =
      .ok ⟨c.name, c.identifier,
        .dir (MemDB.loadAll (readable env.decode (files (Path.base root) (env.tree root))) names)⟩

theorem readable_append (decode : Str → Option OSV) (a b : List (Str × Option Str)) :
    readable decode (a ++ b) = readable decode a ++ readable decode b := by
  unfold readable; rw [List.filterMap_append]

/-- Loading more advisories into a database. -/
def addAll (names : List Str) (db : MemDB) (os : List OSV) : MemDB :=
  os.foldl (fun db o => db.addVulnerability o names) db

theorem walkVisit_db (decode : Str → Option OSV) (names : List Str) (name : Str) (content : Option Str)
    (s : WalkState) :
    (walkVisit decode names name content s).db = addAll names s.db (readable decode [(name, content)]) := by
  unfold walkVisit readable addAll
  by_cases h : Str.hasSuffix name g!".json" = true
  · cases content with
    | none => simp [h]
    | some c =>
      cases hd : decode c with
      | none => simp [h, hd]
      | some o => simp [h, hd]
  · simp [h]

mutual
theorem walkNode_spec (decode : Str → Option OSV) (names : List Str) (name : Str) (n : FNode) (s : WalkState) :
    (Vanished n → walkNode decode names name n s = none) ∧
    (¬ Vanished n → ∃ s', walkNode decode names name n s = some s' ∧
      s'.db = addAll names s.db (readable decode (files name n))) := by
  match n with
  | .gone => exact ⟨fun _ => rfl, fun h => absurd trivial h⟩
  | .file content =>
    refine ⟨fun h => h.elim, fun _ => ⟨_, rfl, walkVisit_db ..⟩⟩
  | .locked => exact ⟨fun h => h.elim, fun _ => ⟨_, rfl, rfl⟩⟩
  | .dir entries =>
    obtain ⟨h1, h2⟩ := walkList_spec decode names entries (walkVisit decode names name none s)
    refine ⟨fun h => h1 h, fun h => ?_⟩
    obtain ⟨s', hs, hdb⟩ := h2 h
    refine ⟨s', hs, ?_⟩
    rw [hdb, walkVisit_db]
    have : readable decode [(name, none)] = [] := by unfold readable; simp
    rw [this]
    rfl
theorem walkList_spec (decode : Str → Option OSV) (names : List Str) (l : FList) (s : WalkState) :
    (VanishedIn l → walkList decode names l s = none) ∧
    (¬ VanishedIn l → ∃ s', walkList decode names l s = some s' ∧
      s'.db = addAll names s.db (readable decode (filesIn l))) := by
  match l with
  | .nil => exact ⟨fun h => h.elim, fun _ => ⟨s, rfl, rfl⟩⟩
  | .cons name node rest =>
    obtain ⟨h1, h2⟩ := walkNode_spec decode names name node s
    simp only [VanishedIn, walkList]
    by_cases hn : Vanished node
    · rw [h1 hn]
      exact ⟨fun _ => rfl, fun h => absurd (.inl hn) h⟩
    · obtain ⟨s1, hs1, hdb1⟩ := h2 hn
      rw [hs1, Option.bind_some]
      obtain ⟨h3, h4⟩ := walkList_spec decode names rest s1
      refine ⟨fun h => h3 (h.resolve_left hn), fun h => ?_⟩
      obtain ⟨s2, hs2, hdb2⟩ := h4 (fun hv => h (.inr hv))
      refine ⟨s2, hs2, ?_⟩
      rw [hdb2, hdb1, filesIn, readable_append]
      unfold addAll
      rw [List.foldl_append]
end

/-- **C21** (partial): if nothing vanishes during the walk, the load succeeds and has exactly the readable,
well-formed `.json` files, in walk order; unreadable files, malformed files, other files and directories that
cannot be listed drop only themselves. Missing: trees in which an entry vanishes. -/
theorem C21_exact_partial (env : LoadEnv) (c : DBConfig) (names : List Str) (path : Str)
    (hp : Str.hasPrefix c.url g!"file:" = true) (hu : env.parseURI c.url = some path)
    (hv : ¬ Vanished (env.tree (Path.join2 (Str.trimPrefix path g!"/") c.workingDirectory))) :
    let root := Path.join2 (Str.trimPrefix path g!"/") c.workingDirectory
    newDirDB env c names =
      .ok ⟨c.name, c.identifier,
        .dir (MemDB.loadAll (readable env.decode (files (Path.base root) (env.tree root))) names)⟩ := by
  intro root
  obtain ⟨s', hs, hdb⟩ := (walkNode_spec env.decode names (Path.base root) (env.tree root) {}).2 hv
  unfold newDirDB
  rw [hp, hu]
  simp only [Bool.not_true, Bool.false_eq_true, if_false]
  rw [hs]
  simp only [Outcome.ok.injEq, LoadedDB.mk.injEq, DBKind.dir.injEq, true_and]
  rw [hdb]; rfl

/-- **C21** (failures). With a good URL the load fails exactly when some entry met by the walk (or the root)
has vanished. -/
theorem C21_fails_iff (env : LoadEnv) (c : DBConfig) (names : List Str) (path : Str)
    (hp : Str.hasPrefix c.url g!"file:" = true) (hu : env.parseURI c.url = some path) :
    newDirDB env c names = .error .walk ↔
      Vanished (env.tree (Path.join2 (Str.trimPrefix path g!"/") c.workingDirectory)) := by
  constructor
  · intro h
    refine Classical.byContradiction fun hv => ?_
    rw [C21_exact_partial env c names path hp hu hv] at h
    cases h
  · intro hv
    unfold newDirDB
    rw [hp, hu]
    simp only [Bool.not_true, Bool.false_eq_true, if_false]
    rw [(walkNode_spec ..).1 hv]

theorem walkVisit_errored (decode : Str → Option OSV) (names : List Str) (name : Str) (content : Option Str)
    (s : WalkState) : (walkVisit decode names name content s).errored = true ↔
      s.errored = true ∨ (JsonName name ∧ ∀ c o, content = some c → decode c ≠ some o) := by
  have hj : Str.hasSuffix name g!".json" = true ↔ JsonName name := Str.hasSuffix_iff _ _
  unfold walkVisit
  by_cases h : Str.hasSuffix name g!".json" = true
  · cases content with
    | none => simp [h, ← hj]
    | some c =>
      cases hd : decode c with
      | none =>
        have : ∀ c' o, some c = some c' → decode c' ≠ some o := by rintro c' o e; cases e; rw [hd]; nofun
        simp only [h, hj.1 h, hd, Bool.not_true, Bool.false_eq_true, if_false, true_and, or_true, true_iff]
        exact Or.inr this
      | some o =>
        have : ¬ ∀ c' o, some c = some c' → decode c' ≠ some o := fun h => h c o rfl hd
        simp only [h, hd, Bool.not_true, Bool.false_eq_true, if_false, this, and_false, or_false]
  · simp [h, ← hj]

mutual
theorem walkNode_errored (decode : Str → Option OSV) (names : List Str) (name : Str) (n : FNode) (s s' : WalkState)
    (h : walkNode decode names name n s = some s') :
    s'.errored = true ↔ s.errored = true ∨ Unread decode name n := by
  match n with
  | .gone => cases h
  | .file content => cases h; exact walkVisit_errored ..
  | .locked => cases h; simp [Unread]
  | .dir entries =>
    rw [walkList_errored decode names entries _ s' h, walkVisit_errored, Unread]
    simp [or_assoc]
theorem walkList_errored (decode : Str → Option OSV) (names : List Str) (l : FList) (s s' : WalkState)
    (h : walkList decode names l s = some s') :
    s'.errored = true ↔ s.errored = true ∨ UnreadIn decode l := by
  match l with
  | .nil => cases h; simp [UnreadIn]
  | .cons name node rest =>
    unfold walkList at h
    obtain ⟨s1, h1, h2⟩ := Option.bind_eq_some_iff.1 h
    rw [walkList_errored decode names rest s1 s' h2, walkNode_errored decode names name node s s1 h1, UnreadIn, or_assoc]
end

/-- **C21** (diagnostics). Something is written to stderr about a directory exactly if something in it could not be read. -/
theorem C21_diagnostics (decode : Str → Option OSV) (names : List Str) (name : Str) (n : FNode) (s : WalkState)
    (h : walkNode decode names name n {} = some s) : s.errored = true ↔ Unread decode name n := by
  simpa using walkNode_errored decode names name n {} s h

/-- A directory with one advisory and one entry that vanishes. -/
def c21tree : FNode := .dir (.cons g!"a.json" (.file (some g!"A")) (.cons g!"b.tmp" .gone .nil))

def c21env (t : FNode) : LoadEnv :=
  ⟨fun _ _ _ => .panic, fun _ => none, fun s => some { id := s }, fun _ => some g!"/db", fun _ => t⟩

def c21cfg : DBConfig := { name := g!"n", type := g!"dir", url := g!"file:/db" }

/-- **C21** is false: a temporary file that vanishes during the walk makes the whole load fail. -/
theorem C21_vanishing_entry : ¬ C21_full := by
  intro h
  have := h (c21env c21tree) c21cfg [] g!"/db" (by decide) rfl (by simp [c21env, c21tree])
  rw [(C21_fails_iff (c21env c21tree) c21cfg [] g!"/db" (by decide) rfl).2
    (by simp [c21env, c21tree, Vanished, VanishedIn])] at this
  cases this

/-! ### Non-vacuity -/

/-- A nested directory with an unreadable file, an unlistable directory and another file type. -/
def c21good : FNode :=
  .dir (.cons g!"a.json" (.file (some g!"A")) (.cons g!"b.json" (.file none) (.cons g!"c.txt" (.file (some g!"C"))
    (.cons g!"d" .locked (.cons g!"e.json" (.dir (.cons g!"f.json" (.file (some g!"F")) .nil)) .nil)))))

example : newDirDB (c21env c21good) c21cfg [] =
    .ok ⟨g!"n", g!"dir#file:/db", .dir (MemDB.loadAll [{ id := g!"A" }, { id := g!"F" }] [])⟩ := by
  rw [C21_exact_partial (c21env c21good) c21cfg [] g!"/db" (by decide) rfl
    (by simp [c21env, c21good, Vanished, VanishedIn])]
  rfl

-- a directory named like an advisory is complained about, other names are not
example : Unread (fun _ => none) g!"db" (.dir (.cons g!"a.json" (.dir .nil) .nil)) := .inr (.inl (.inl ⟨g!"a", rfl⟩))

end Osv
