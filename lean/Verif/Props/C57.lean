import Verif.Lemmas.Lists
import Verif.Lemmas.Json
/-!
# C57: one-to-one formats lose nothing

`Entries entry items packages` says that the packages are those of the items that have one, in order. For composer.lock and
renv.lock the items are those of the text; for the formats in TOML and YAML they are the decoded ones, the decoder being a
parameter.
-/
namespace Osv
open Str Spec

namespace Lists

theorem fold_map {α β : Type} (f : α → β) (l : List α) (acc : List β) :
    l.foldl (fun acc x => acc ++ [f x]) acc = acc ++ l.map f := by
  induction l generalizing acc with
  | nil => simp
  | cons x l ih => simp [ih]

theorem entries_map {α β : Type} {entry : α → β → Prop} (f : α → β) (h : ∀ x, entry x (f x)) (l : List α) :
    Entries entry l (l.map f) := by
  induction l with
  | nil => exact .nil
  | cons x l ih => exact .keep (h x) ih

theorem entries_append {α β : Type} {entry : α → β → Prop} {a b : List α} {c d : List β} (h : Entries entry a c)
    (h' : Entries entry b d) : Entries entry (a ++ b) (c ++ d) := by
  induction h with
  | nil => exact h'
  | keep h1 _ ih => exact .keep h1 ih
  | skip h1 _ ih => exact .skip h1 ih

/-- A loop that appends the entry of each item that has one. -/
theorem entries_fold {α β : Type} {entry : α → β → Prop} (step : List β → α → List β)
    (h : ∀ x, (∃ b, entry x b ∧ ∀ acc, step acc x = acc ++ [b]) ∨ ((∀ b, ¬ entry x b) ∧ ∀ acc, step acc x = acc)) (l : List α)
    (acc : List β) : ∃ r, l.foldl step acc = acc ++ r ∧ Entries entry l r := by
  induction l generalizing acc with
  | nil => exact ⟨[], by simp, .nil⟩
  | cons x l ih =>
    rw [List.foldl_cons]
    rcases h x with ⟨b, hb, hs⟩ | ⟨hn, hs⟩
    · rw [hs]
      obtain ⟨r, h1, h2⟩ := ih (acc ++ [b])
      exact ⟨b :: r, by rw [h1]; simp, .keep hb h2⟩
    · rw [hs]
      obtain ⟨r, h1, h2⟩ := ih acc
      exact ⟨r, h1, .skip hn h2⟩

/-- The entries of a list are determined by it. -/
theorem entries_unique {α β : Type} {entry : α → β → Prop} {l : List α} {r r' : List β}
    (hu : ∀ x ∈ l, ∀ b b', entry x b → entry x b' → b = b') (h : Entries entry l r) (h' : Entries entry l r') : r = r' := by
  induction h generalizing r' with
  | nil => cases h'; rfl
  | keep h1 _ ih =>
    cases h' with
    | keep h2 h3 => rw [hu _ (by simp) _ _ h1 h2, ih (fun x hx => hu x (by simp [hx])) h3]
    | skip h2 _ => exact absurd h1 (h2 _)
  | skip h1 _ ih =>
    cases h' with
    | keep h2 _ => exact absurd h2 (h1 _)
    | skip _ h3 => exact ih (fun x hx => hu x (by simp [hx])) h3

theorem afterHash_cut (s : Str) : AfterHash s (cut s g!"#").2 := by
  by_cases h : '#' ∈ s
  · obtain ⟨a, b, rfl, ha⟩ := List.eq_append_cons_of_mem h
    rw [Bun.cut_char ha]
    exact Or.inr ⟨a, rfl, ha⟩
  · rw [Bun.cut_none h]
    exact Or.inl ⟨h, rfl⟩

theorem afterHash_unique {s t t' : Str} (h : AfterHash s t) (h' : AfterHash s t') : t = t' := by
  rcases h with ⟨h1, rfl⟩ | ⟨a, rfl, ha⟩ <;> rcases h' with ⟨h2, rfl⟩ | ⟨b, e, hb⟩
  · rfl
  · subst e; simp at h1
  · simp at h2
  · have h1 := Bun.cut_char (b := t) ha
    rw [e, Bun.cut_char hb] at h1
    exact (congrArg Prod.snd h1).symm

end Lists

/-- Cargo.lock -/
theorem C57_cargo (decode : Str → Option (List CargoPackage)) (content : Str) (l : List CargoPackage) (h : decode content = some l) :
    ∃ pkgs, parseCargoLock decode (some content) = (pkgs, false) ∧ Entries CargoEntry l pkgs := by
  unfold parseCargoLock
  rw [Option.bind_some, h]
  dsimp only
  rw [Lists.fold_map, List.nil_append]
  exact ⟨_, rfl, Lists.entries_map (entry := CargoEntry) _ (fun _ => rfl) l⟩

/-- poetry.lock -/
theorem C57_poetry (decode : Str → Option (List PoetryPackage)) (content : Str) (l : List PoetryPackage) (h : decode content = some l) :
    ∃ pkgs, parsePoetryLock decode (some content) = (pkgs, false) ∧ Entries PoetryEntry l pkgs := by
  unfold parsePoetryLock
  rw [Option.bind_some, h]
  dsimp only
  rw [Lists.fold_map, List.nil_append]
  exact ⟨_, rfl, Lists.entries_map (entry := PoetryEntry) _ (fun _ => rfl) l⟩

/-- pdm.lock -/
theorem C57_pdm (decode : Str → Option (List PdmPackage)) (content : Str) (l : List PdmPackage) (h : decode content = some l) :
    ∃ pkgs, parsePdmLock decode (some content) = (pkgs, false) ∧ Entries PdmEntry l pkgs := by
  unfold parsePdmLock
  rw [Option.bind_some, h]
  dsimp only
  rw [Lists.fold_map, List.nil_append]
  refine ⟨_, rfl, Lists.entries_map _ (fun x => ?_) l⟩
  unfold PdmEntry pdmDetails
  by_cases hr : x.revision = []
  · rw [if_neg (by simp [hr]), hr]; rfl
  · rw [if_pos hr]; rfl

/-- uv.lock -/
theorem C57_uv (decode : Str → Option (List UvPackage)) (content : Str) (l : List UvPackage) (h : decode content = some l) :
    ∃ pkgs, parseUvLock decode (some content) = (pkgs, false) ∧ Entries UvEntry l pkgs := by
  unfold parseUvLock
  rw [Option.bind_some, h]
  dsimp only
  obtain ⟨r, h1, h2⟩ := Lists.entries_fold (entry := UvEntry) uvStep (by
    intro x
    by_cases hv : x.virtual = g!"."
    · exact Or.inr ⟨fun b hb => hb.1 hv, fun acc => by unfold uvStep; rw [if_pos hv]⟩
    · exact Or.inl ⟨_, ⟨hv, _, Lists.afterHash_cut _, rfl⟩, fun acc => by unfold uvStep; rw [if_neg hv]; rfl⟩) l []
  exact ⟨r, by rw [h1]; rfl, h2⟩

/-- pylock.toml -/
theorem C57_pylock (decode : Str → Option (List PylockPackage)) (content : Str) (l : List PylockPackage) (h : decode content = some l) :
    ∃ pkgs, parsePylock decode (some content) = (pkgs, false) ∧ Entries PylockEntry l pkgs := by
  unfold parsePylock
  rw [Option.bind_some, h]
  dsimp only
  obtain ⟨r, h1, h2⟩ := Lists.entries_fold (entry := PylockEntry) pylockStep (by
    intro x
    by_cases hv : x.version = [] ∧ x.path = g!"."
    · exact Or.inr ⟨fun b hb => hb.1 hv, fun acc => by unfold pylockStep; rw [if_pos (by simpa using hv)]⟩
    · refine Or.inl ⟨_, ⟨hv, rfl⟩, fun acc => ?_⟩
      unfold pylockStep
      rw [if_neg (by simpa using hv)]
      dsimp only
      by_cases hc : x.commit = []
      · rw [if_neg (by simp [hc]), hc]; rfl
      · rw [if_pos hc]; rfl) l []
  exact ⟨r, by rw [h1]; rfl, h2⟩

namespace Pubspec

/-- What the descriptions are decoded to. -/
theorem descriptions (l : SMap PubspecPackage)
    (h : ∀ x ∈ l, ∀ n, x.2.description = some n → n.asStruct = none → ∃ s, n.asString = some (some s)) :
    ∃ r, pubspecDescriptions l = .ok r ∧ ∃ f : Str × PubspecPackage → Str × Str × PubspecDescription, r = l.map f ∧
      ∀ x ∈ l, PubspecEntry x ⟨(f x).1, (f x).2.1, (f x).2.2.ref, g!"Pub", g!"Pub"⟩ := by
  refine ⟨l.map fun x => (x.1, x.2.version, match x.2.description with
    | none => {}
    | some n => match n.asStruct, n.asString with
      | some d, _ => d
      | none, some (some s) => { path := s }
      | none, _ => {}), ?_, _, rfl, ?_⟩
  · induction l with
    | nil => rfl
    | cons x l ih =>
      obtain ⟨name, p⟩ := x
      have ih' := ih fun x hx => h x (by simp [hx])
      unfold pubspecDescriptions
      cases hd : p.description with
      | none =>
        simp only [Option.map_none, Option.getD_none]
        rw [ih']
        simp [hd]
      | some n =>
        simp only [Option.map_some, Option.getD_some]
        unfold PubspecNode.decode
        cases hs : n.asStruct with
        | some d =>
          simp only
          rw [ih']
          simp [hd, hs]
        | none =>
          obtain ⟨s, ht⟩ := h (name, p) (by simp) n hd hs
          rw [ht]
          simp only
          rw [ih']
          simp [hd, hs, ht]
  · intro x hx
    refine ⟨_, rfl, ?_⟩
    cases hd : x.2.description with
    | none => exact Or.inr (Or.inr ⟨rfl, rfl⟩)
    | some n =>
      cases hs : n.asStruct with
      | some d => exact Or.inl ⟨n, d, rfl, hs, by simp [hs]⟩
      | none =>
        obtain ⟨s, ht⟩ := h x hx n hd hs
        exact Or.inr (Or.inl ⟨n, s, rfl, hs, ht, by simp [hs, ht]⟩)

end Pubspec

/-- pubspec.lock, for every iteration order. The descriptions are structs or texts: the library does not decode null, for which
the description is not decoded at all. -/
theorem C57_pubspec (yaml : Str → Option (Option (SMap PubspecPackage)))
    (iter : SMap (Str × PubspecDescription) → SMap (Str × PubspecDescription)) (hi : ∀ l, (iter l).Perm l) (content : Str)
    (l : SMap PubspecPackage) (h : yaml content = some (some l))
    (hd : ∀ x ∈ l, ∀ n, x.2.description = some n → n.asStruct = none → ∃ s, n.asString = some (some s)) :
    ∃ pkgs items, parsePubspecLock yaml iter (some content) = some (pkgs, false) ∧ items.Perm l ∧ Entries PubspecEntry items pkgs := by
  obtain ⟨r, hr, f, rfl, hf⟩ := Pubspec.descriptions l hd
  obtain ⟨items, hp, hm⟩ := perm_map_lift (hi (l.map f)) l rfl
  refine ⟨(iter (l.map f)).map fun x => ⟨x.1, x.2.1, x.2.2.ref, g!"Pub", g!"Pub"⟩, items, ?_, hp, ?_⟩
  · unfold parsePubspecLock
    rw [Option.bind_some, h]
    dsimp only
    rw [hr]
    rfl
  · rw [← hm, List.map_map]
    have hf' : ∀ x ∈ items, PubspecEntry x ⟨(f x).1, (f x).2.1, (f x).2.2.ref, g!"Pub", g!"Pub"⟩ := fun x hx => hf x (hp.mem_iff.1 hx)
    clear hp hm hf hr
    induction items with
    | nil => exact .nil
    | cons x items ih => exact .keep (hf' x (by simp)) (ih fun x hx => hf' x (by simp [hx]))

/-- composer.lock -/
theorem C57_composer (content : Str) (packages dev : List JVal) (h : ComposerFile content packages dev) :
    ∃ pkgs, parseComposerLock (some content) = some (pkgs, false) ∧ Entries ComposerEntry (packages ++ dev) pkgs := by
  obtain ⟨l, hl, h1, h2⟩ := Composer.decoded h
  refine ⟨_, ?_, Lists.entries_append h1 h2⟩
  unfold parseComposerLock
  dsimp only
  rw [hl]

/-- renv.lock, for every iteration order -/
theorem C57_renv (iter : SMap RenvPackage → SMap RenvPackage) (hi : ∀ l, (iter l).Perm l) (content : Str) (packages : JMembers)
    (h : RenvFile content packages) :
    ∃ pkgs items, parseRenvLock iter (some content) = some (pkgs, false) ∧ items.Perm packages.toList ∧ Entries RenvEntry items pkgs := by
  obtain ⟨l, hl, he⟩ := Renv.decoded h
  obtain ⟨doc, _, _, _, _, ht⟩ := h
  obtain ⟨items, hp, hm⟩ := perm_map_lift ((hi (l.getD [])).map (fun x => (x.1, some x.2))) packages.toList he.symm
  refine ⟨_, items, ?_, hp, Renv.loop_entries items (iter (l.getD [])) (fun x hx => ht x.1 x.2 (hp.mem_iff.1 hx)) hm⟩
  unfold parseRenvLock
  dsimp only
  rw [hl]

/-- An item has at most one package, so that the packages are determined by the items. -/
theorem C57_unique :
    (∀ x p q, CargoEntry x p → CargoEntry x q → p = q) ∧ (∀ x p q, PoetryEntry x p → PoetryEntry x q → p = q) ∧
    (∀ x p q, PdmEntry x p → PdmEntry x q → p = q) ∧ (∀ x p q, UvEntry x p → UvEntry x q → p = q) ∧
    (∀ x p q, PylockEntry x p → PylockEntry x q → p = q) ∧ (∀ x p q, PubspecEntry x p → PubspecEntry x q → p = q) ∧
    (∀ x p q, ComposerTyped x → ComposerEntry x p → ComposerEntry x q → p = q) ∧
    (∀ x p q, RenvTyped x.2 → RenvEntry x p → RenvEntry x q → p = q) := by
  refine ⟨?_, ?_, ?_, ?_, ?_, ?_, fun x p q h => Composer.entry_unique h, ?_⟩
  · rintro x p q rfl rfl; rfl
  · rintro x p q rfl rfl; rfl
  · rintro x p q rfl rfl; rfl
  · rintro x p q ⟨_, c, hc, rfl⟩ ⟨_, d, hd, rfl⟩
    rw [Lists.afterHash_unique hc hd]
  · rintro x p q ⟨_, rfl⟩ ⟨_, rfl⟩; rfl
  · rintro x p q ⟨c, rfl, hc⟩ ⟨d, rfl, hd⟩
    have : c = d := by
      rcases hc with ⟨n, s, h1, h2, rfl⟩ | ⟨n, s, h1, h2, h3, rfl⟩ | ⟨h1, rfl⟩ <;>
        rcases hd with ⟨n', s', h1', h2', rfl⟩ | ⟨n', s', h1', h2', h3', rfl⟩ | ⟨h1', rfl⟩ <;> simp_all
    rw [this]
  · intro x p q h hp hq
    obtain ⟨d, hd⟩ := Renv.package_ok h
    rw [((Renv.entry_fields h hd p).1 hp).2, ((Renv.entry_fields h hd q).1 hq).2]

/-- A file that cannot be read or decoded is an error without packages. -/
theorem C57_error (content : Option Str) :
    (∀ decode, content.bind decode = none → parseCargoLock decode content = ([], true)) ∧
    (∀ decode, content.bind decode = none → parsePoetryLock decode content = ([], true)) ∧
    (∀ decode, content.bind decode = none → parsePdmLock decode content = ([], true)) ∧
    (∀ decode, content.bind decode = none → parseUvLock decode content = ([], true)) ∧
    (∀ decode, content.bind decode = none → parsePylock decode content = ([], true)) ∧
    (∀ yaml iter, content.bind yaml = none → parsePubspecLock yaml iter content = some ([], true)) ∧
    (content.bind Json.parse = none → parseComposerLock content = some ([], true)) ∧
    (∀ iter, content.bind Json.parse = none → parseRenvLock iter content = some ([], true)) := by
  refine ⟨?_, ?_, ?_, ?_, ?_, ?_, ?_, ?_⟩
  · intro d h; unfold parseCargoLock; rw [h]
  · intro d h; unfold parsePoetryLock; rw [h]
  · intro d h; unfold parsePdmLock; rw [h]
  · intro d h; unfold parseUvLock; rw [h]
  · intro d h; unfold parsePylock; rw [h]
  · intro d i h; unfold parsePubspecLock; rw [h]
  · intro h
    cases content with
    | none => rfl
    | some c => rw [Option.bind_some] at h; unfold parseComposerLock; dsimp only; rw [h]; rfl
  · intro i h
    cases content with
    | none => rfl
    | some c => rw [Option.bind_some] at h; unfold parseRenvLock; dsimp only; rw [h]; rfl

-- a root and a package from git
example : Entries UvEntry [⟨g!"root", g!"0", g!".", []⟩, ⟨g!"a", g!"1", [], g!"https://h/a#abc"⟩] [pkg g!"PyPI" g!"a" g!"1" g!"abc"] :=
  .skip (fun _ h => h.1 rfl) (.keep ⟨by decide, g!"abc", Or.inr ⟨g!"https://h/a", rfl, by decide⟩, rfl⟩ .nil)

/-- A composer.lock with a package and a development package. -/
def C57_sample : JMembers :=
  .cons g!"packages" (.arr (.cons (.obj (.cons g!"name" (.str g!"a/b") (.cons g!"version" (.str g!"1.0")
      (.cons g!"dist" (.obj (.cons g!"reference" (.str g!"abc") .nil)) .nil)))) .nil))
    (.cons g!"packages-dev" (.arr (.cons (.obj (.cons g!"name" (.str g!"c/d") .nil)) .nil)) .nil)

-- the hypothesis of `C57_composer` holds for it
example : ∃ packages dev, ComposerFile (Json.render (.obj C57_sample)) packages dev ∧ packages.length = 1 ∧ dev.length = 1 := by
  refine ⟨_, _, ⟨_, Json.parse_render _ (by simp [Json.JOk, Json.JOkM, Json.JOkL, C57_sample]), ?_,
    Or.inl ⟨.arr _, List.mem_cons_self, Or.inl ⟨_, rfl, rfl⟩⟩,
    Or.inl ⟨.arr _, List.mem_cons_of_mem _ List.mem_cons_self, Or.inl ⟨_, rfl, rfl⟩⟩, ?_⟩, rfl, rfl⟩
  · unfold PlainKeys DistinctKeys; simp [JMembers.toList, C57_sample]; decide
  · intro x hx
    simp only [JList.toList, List.cons_append, List.nil_append, List.mem_cons, List.not_mem_nil, or_false] at hx
    rcases hx with rfl | rfl
    · refine ⟨_, Or.inl rfl, by unfold PlainKeys DistinctKeys; simp [JMembers.toList]; decide, ?_, ?_, ?_⟩
      · simp [Member, JMembers.toList, IsText]
      · simp [Member, JMembers.toList, IsText]
      · intro v hv
        have : v = .obj (.cons g!"reference" (.str g!"abc") .nil) := by simpa [Member, JMembers.toList] using hv
        subst this
        exact ⟨_, Or.inl rfl, by unfold PlainKeys DistinctKeys; simp [JMembers.toList], by simp [Member, JMembers.toList, IsText]⟩
    · refine ⟨_, Or.inl rfl, by unfold PlainKeys DistinctKeys; simp [JMembers.toList]; decide, ?_, ?_, ?_⟩
      · simp [Member, JMembers.toList, IsText]
      · simp [Member, JMembers.toList]
      · simp [Member, JMembers.toList]

-- one package of CRAN and one of another repository
example : ∃ packages, RenvFile (Json.render (.obj (.cons g!"Packages" (.obj packages) .nil))) packages ∧ packages.toList.length = 2 := by
  refine ⟨.cons g!"a" (.obj (.cons g!"Package" (.str g!"a") (.cons g!"Repository" (.str g!"CRAN") .nil)))
    (.cons g!"b" (.obj (.cons g!"Package" (.str g!"b") (.cons g!"Repository" (.str g!"Other") .nil))) .nil),
    ⟨_, Json.parse_render _ (by simp [Json.JOk, Json.JOkM]), ?_, Or.inl ⟨_, List.mem_cons_self, Or.inl rfl⟩, ?_, ?_⟩, rfl⟩
  · unfold PlainKeys DistinctKeys; simp [JMembers.toList]
  · simp [DistinctKeys, JMembers.toList]
  · intro k x hx
    simp only [Member, JMembers.toList, List.mem_cons, Prod.mk.injEq, List.not_mem_nil, or_false] at hx
    rcases hx with ⟨_, rfl⟩ | ⟨_, rfl⟩
    · refine ⟨_, Or.inl rfl, by unfold PlainKeys DistinctKeys; simp [JMembers.toList]; decide, ?_⟩
      intro f hf v hv
      simp only [Member, JMembers.toList, List.mem_cons, Prod.mk.injEq, List.not_mem_nil, or_false] at hv
      rcases hv with ⟨_, rfl⟩ | ⟨_, rfl⟩ <;> exact Or.inr ⟨_, rfl⟩
    · refine ⟨_, Or.inl rfl, by unfold PlainKeys DistinctKeys; simp [JMembers.toList]; decide, ?_⟩
      intro f hf v hv
      simp only [Member, JMembers.toList, List.mem_cons, Prod.mk.injEq, List.not_mem_nil, or_false] at hv
      rcases hv with ⟨_, rfl⟩ | ⟨_, rfl⟩ <;> exact Or.inr ⟨_, rfl⟩

end Osv
