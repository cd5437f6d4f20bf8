import Verif.Props.C35
/-! # C36 Extra database configs -/
namespace Osv
open Spec Str

/-- The type of a database entry. -/
inductive HasType (d : RawDB) : Str → Prop where
  | explicit : d.type ≠ [] → HasType d d.type
  | dir (rest : Str) : d.type = [] → d.url = g!"file:/" ++ rest → HasType d g!"dir"
  | zip (pre : Str) : d.type = [] → (¬ ∃ rest, d.url = g!"file:/" ++ rest) → d.url = pre ++ g!".zip" → HasType d g!"zip"
  | api : d.type = [] → (¬ ∃ rest, d.url = g!"file:/" ++ rest) → (¬ ∃ pre, d.url = pre ++ g!".zip") → HasType d g!"api"

theorem hasPrefix_iff' (s p : Str) : hasPrefix s p = true ↔ ∃ t, s = p ++ t := by
  unfold hasPrefix
  rw [List.isPrefixOf_iff_prefix]
  exact ⟨fun ⟨t, h⟩ => ⟨t, h.symm⟩, fun ⟨t, h⟩ => ⟨t, h.symm⟩⟩

theorem hasSuffix_iff' (s p : Str) : hasSuffix s p = true ↔ ∃ t, s = t ++ p := by
  unfold hasSuffix
  rw [List.isSuffixOf_iff_suffix]
  exact ⟨fun ⟨t, h⟩ => ⟨t, h.symm⟩, fun ⟨t, h⟩ => ⟨t, h.symm⟩⟩

/-- The inferred type is the specified one. -/
theorem C36_type (d : RawDB) (t : Str) : HasType d t ↔ t = d.inferType := by
  have exact1 : HasType d d.inferType := by
    unfold RawDB.inferType
    split
    · rename_i h; exact .explicit h
    · rename_i h
      have h : d.type = [] := Classical.not_not.1 h
      split
      · rename_i hp
        obtain ⟨t, ht⟩ := (hasPrefix_iff' _ _).1 hp
        exact .dir t h ht
      · rename_i hp
        rw [hasPrefix_iff'] at hp
        split
        · rename_i hz
          obtain ⟨t, ht⟩ := (hasSuffix_iff' _ _).1 hz
          exact .zip t h hp ht
        · rename_i hz
          rw [hasSuffix_iff'] at hz
          exact .api h hp hz
  constructor
  · intro h
    cases h with
    | explicit h => unfold RawDB.inferType; rw [if_pos h]
    | dir rest h h' =>
      unfold RawDB.inferType
      rw [if_neg (by simp [h]), if_pos ((hasPrefix_iff' _ _).2 ⟨_, h'⟩)]
    | zip pre h h1 h2 =>
      unfold RawDB.inferType
      rw [if_neg (by simp [h]), if_neg (by rw [hasPrefix_iff']; exact h1), if_pos ((hasSuffix_iff' _ _).2 ⟨_, h2⟩)]
    | api h h1 h2 =>
      unfold RawDB.inferType
      rw [if_neg (by simp [h]), if_neg (by rw [hasPrefix_iff']; exact h1), if_neg (by rw [hasSuffix_iff']; exact h2)]
  · rintro rfl; exact exact1

/-- An entry is kept exactly if its URL is valid and its type supported; then it has that type, its URL and working
directory, and its name or else its identifier as name. -/
theorem C36_kept (v : Str → Bool) (d : RawDB) (c : DBConfig) :
    d.toConfig v = .ok c ↔ v d.url = true ∧ c.type ∈ [g!"zip", g!"api", g!"dir"] ∧ HasType d c.type ∧ c.url = d.url ∧
      c.workingDirectory = d.workingDirectory ∧ c.name = (if d.name = [] then c.identifier else d.name) := by
  have hid : ∀ n t u w, (⟨n, t, u, w⟩ : DBConfig).identifier = (⟨[], t, u, w⟩ : DBConfig).identifier := fun _ _ _ _ => rfl
  unfold RawDB.toConfig
  rw [C36_type]
  cases hv : v d.url with
  | false => simp
  | true =>
    dsimp only
    simp only [Bool.not_true, Bool.false_eq_true, if_false, true_and]
    obtain ⟨cn, ct, cu, cw⟩ := c
    dsimp only
    by_cases ht : d.inferType ≠ g!"zip" ∧ d.inferType ≠ g!"api" ∧ d.inferType ≠ g!"dir"
    · rw [if_pos ht]
      constructor
      · intro h; cases h
      · rintro ⟨h1, rfl, -⟩
        exfalso
        simp only [List.mem_cons, List.not_mem_nil, or_false] at h1
        rcases h1 with h | h | h
        · exact ht.1 h
        · exact ht.2.1 h
        · exact ht.2.2 h
    · rw [if_neg ht]
      have ht' : d.inferType ∈ [g!"zip", g!"api", g!"dir"] := by
        simp only [List.mem_cons, List.not_mem_nil, or_false]
        refine Classical.byContradiction fun hn => ht ?_
        exact ⟨fun h => hn (.inl h), fun h => hn (.inr (.inl h)), fun h => hn (.inr (.inr h))⟩
      by_cases hname : d.name = []
      · rw [if_pos hname, if_pos hname]
        constructor
        · intro h
          injection h with h
          injection h with h1 h2 h3 h4
          subst h2 h3 h4
          exact ⟨ht', rfl, rfl, rfl, by rw [← h1, hname]; exact (hid _ _ _ _).symm⟩
        · rintro ⟨-, rfl, rfl, rfl, h⟩
          rw [h, hname]
          rfl
      · rw [if_neg hname, if_neg hname]
        constructor
        · intro h
          injection h with h
          injection h with h1 h2 h3 h4
          subst h2 h3 h4
          exact ⟨ht', rfl, rfl, rfl, h1.symm⟩
        · rintro ⟨-, rfl, rfl, rfl, h⟩
          rw [h]

/-- The other entries are dropped because of their URL, or else because of their type. -/
theorem C36_dropped (v : Str → Bool) (d : RawDB) (e : RawDBErr) :
    d.toConfig v = .error e ↔ (v d.url = false ∧ e = .badURL) ∨
      (v d.url = true ∧ ∃ t, HasType d t ∧ t ∉ [g!"zip", g!"api", g!"dir"] ∧ e = .unsupportedType t) := by
  unfold RawDB.toConfig
  simp only [C36_type]
  cases hv : v d.url with
  | false => simp [eq_comm]
  | true =>
    simp only [Bool.not_true, Bool.false_eq_true, if_false, true_and, Bool.true_eq_false, false_and, false_or, List.mem_cons,
      List.not_mem_nil, or_false, not_or]
    by_cases ht : d.inferType ≠ g!"zip" ∧ d.inferType ≠ g!"api" ∧ d.inferType ≠ g!"dir"
    · rw [if_pos ht]
      constructor
      · intro h; injection h with h; exact ⟨_, rfl, ht, h.symm⟩
      · rintro ⟨t, rfl, -, rfl⟩; rfl
    · rw [if_neg ht]
      constructor
      · intro h; cases h
      · rintro ⟨t, rfl, h, -⟩; exact absurd h ht

/-- The kept entry, if any. -/
def keptEntry (v : Str → Bool) (d : RawDB) : Option DBConfig := (d.toConfig v).toOption

/-- The reason for dropping an entry, if it is dropped. -/
def dropReason (v : Str → Bool) (d : RawDB) : Option RawDBErr :=
  match d.toConfig v with
  | .error e => some e
  | .ok _ => none

/-- A config has the path and ignores of its file and all valid entries in order; there is one error for each other
entry, in order. -/
theorem C36_config (v : Str → Bool) (path : Str) (raw : RawConfig) :
    newConfig v path raw = (⟨path, raw.ignore, raw.databases.filterMap (keptEntry v)⟩, raw.databases.filterMap (dropReason v)) := by
  unfold newConfig
  have : ∀ (ds : List RawDB) (acc : Config × List RawDBErr), ds.foldl (newConfigStep v) acc =
      (⟨acc.1.filePath, acc.1.ignore, acc.1.databases ++ ds.filterMap (keptEntry v)⟩, acc.2 ++ ds.filterMap (dropReason v)) := by
    intro ds
    induction ds with
    | nil => intro acc; simp
    | cons d ds ih =>
      intro acc
      rw [List.foldl_cons, ih, List.filterMap_cons, List.filterMap_cons]
      unfold newConfigStep
      have hk : keptEntry v d = (d.toConfig v).toOption := rfl
      have hd : dropReason v d = match d.toConfig v with
        | .error e => some e
        | .ok _ => none := rfl
      rw [hk, hd]
      cases d.toConfig v <;> simp [Except.toOption]
  rw [this]
  simp

/-- Every entry is either kept or dropped. -/
theorem C36_nothing_lost (v : Str → Bool) (d : RawDB) : (keptEntry v d).isSome = !(dropReason v d).isSome := by
  unfold keptEntry dropReason
  cases d.toConfig v <;> rfl

/-! ### Non-vacuity -/

example : HasType ⟨g!"file:/x.zip", [], [], []⟩ g!"dir" := .dir g!"x.zip" rfl rfl
example : HasType ⟨g!"https://e.org/x.zip", [], [], []⟩ g!"zip" := (C36_type _ _).2 (by decide)
example : (newConfig (fun u => decide (u ≠ g!"bad")) g!"p" ⟨[g!"X"], [⟨g!"https://e.org", [], [], []⟩, ⟨g!"bad", [], [], []⟩,
    ⟨g!"https://e.org/a", g!"n", g!"git", []⟩, ⟨g!"file:/x", g!"m", [], g!"w"⟩]⟩) =
    (⟨g!"p", [g!"X"], [⟨g!"api#https://e.org", g!"api", g!"https://e.org", []⟩, ⟨g!"m", g!"dir", g!"file:/x", g!"w"⟩]⟩,
      [.badURL, .unsupportedType g!"git"]) := by decide +kernel

end Osv
