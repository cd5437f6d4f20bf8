import Verif.Model.Load
/-!
# C17 Database loading dispatch and guards
-/
namespace Osv

/-- **C17** (guards). An API database is refused when offline, and with a batch size below 1. -/
theorem C17_api_guards (env : LoadEnv) (c : DBConfig) (offline : Bool) (batchSize : Int) (names : List Str)
    (ht : c.type = g!"api") :
    (offline = true → loadDB env c offline batchSize names = .error .offlineNotSupported) ∧
    (offline = false → batchSize < 1 → loadDB env c offline batchSize names = .error .invalidBatchSize) ∧
    (offline = false → 1 ≤ batchSize → (env.parseURI c.url).isSome →
      loadDB env c offline batchSize names = .ok ⟨c.name, c.identifier, .api batchSize⟩) := by
  have h : loadDB env c offline batchSize names = newAPIDB env c offline batchSize := by
    unfold loadDB; rw [ht]; rfl
  rw [h]
  unfold newAPIDB
  refine ⟨?_, ?_, ?_⟩
  · intro h; simp [h]
  · intro h hb; simp [h, hb]
  · intro h hb hu
    obtain ⟨u, hu⟩ := Option.isSome_iff_exists.1 hu
    have : ¬ batchSize < 1 := by omega
    simp [h, this, hu]

/-- **C17** (types). Any type other than `zip`, `api` and `dir` is refused. -/
theorem C17_unsupported (env : LoadEnv) (c : DBConfig) (offline : Bool) (batchSize : Int) (names : List Str) :
    loadDB env c offline batchSize names = .error .unsupportedType ↔
      c.type ≠ g!"zip" ∧ c.type ≠ g!"api" ∧ c.type ≠ g!"dir" := by
  unfold loadDB
  constructor
  · intro h
    refine ⟨?_, ?_, ?_⟩
    · intro ht
      rw [if_pos ht] at h
      unfold newZippedDB at h
      repeat' split at h
      all_goals cases h
    · intro ht
      rw [if_neg (by rw [ht]; decide), if_pos ht] at h
      unfold newAPIDB at h
      repeat' split at h
      all_goals cases h
    · intro ht
      rw [if_neg (by rw [ht]; decide), if_neg (by rw [ht]; decide), if_pos ht] at h
      unfold newDirDB at h
      dsimp only at h
      repeat' split at h
      all_goals cases h
  · rintro ⟨h1, h2, h3⟩
    rw [if_neg h1, if_neg h2, if_neg h3]

/-- **C17** (identity). The database loaded for a config has the name and the identifier of that config and is
of the kind the config asks for. -/
theorem C17_identity (env : LoadEnv) (c : DBConfig) (offline : Bool) (batchSize : Int) (names : List Str)
    (db : LoadedDB) (h : loadDB env c offline batchSize names = .ok db) :
    db.name = c.name ∧ db.identifier = c.identifier ∧
    (c.type = g!"zip" → ∃ m u, db.kind = .zip m u) ∧
    (c.type = g!"api" → offline = false ∧ 1 ≤ batchSize ∧ db.kind = .api batchSize) ∧
    (c.type = g!"dir" → ∃ m, db.kind = .dir m) := by
  unfold loadDB at h
  by_cases h1 : c.type = g!"zip"
  · rw [if_pos h1] at h
    unfold newZippedDB at h
    repeat' split at h
    all_goals cases h
    refine ⟨rfl, rfl, fun _ => ⟨_, _, rfl⟩, ?_, ?_⟩ <;> (rw [h1]; intro h; exact absurd h (by decide))
  · rw [if_neg h1] at h
    by_cases h2 : c.type = g!"api"
    · rw [if_pos h2] at h
      unfold newAPIDB at h
      split at h
      · cases h
      · split at h
        · cases h
        · rename_i ho hb
          split at h
          · cases h
          · cases h
            refine ⟨rfl, rfl, fun h => absurd h h1, fun _ => ⟨by simpa using ho, by omega, rfl⟩, ?_⟩
            rw [h2]; intro h; exact absurd h (by decide)
    · rw [if_neg h2] at h
      by_cases h3 : c.type = g!"dir"
      · rw [if_pos h3] at h
        unfold newDirDB at h
        dsimp only at h
        repeat' split at h
        all_goals cases h
        exact ⟨rfl, rfl, fun h => absurd h h1, fun h => absurd h h2, fun _ => ⟨_, rfl⟩⟩
      · rw [if_neg h3] at h; cases h

/-! ### Non-vacuity -/

def c17env : LoadEnv :=
  ⟨fun _ _ _ => .ok [] [], fun _ => some [], fun _ => none, fun u => some u, fun _ => .file none⟩

example : loadDB c17env { name := g!"n", type := g!"api", url := g!"https://x" } false 10 [] =
    .ok ⟨g!"n", g!"api#https://x", .api 10⟩ := by decide
example : loadDB c17env { name := g!"n", type := g!"api", url := g!"https://x" } true 10 [] =
    .error .offlineNotSupported := by decide
example : loadDB c17env { name := g!"n", type := g!"zip", url := g!"u", workingDirectory := g!"w" } true 0 [] =
    .ok ⟨g!"n", g!"zip#u#w", .zip {} []⟩ := by decide

end Osv
