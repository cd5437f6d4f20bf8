import Verif.Spec.Npm
import Verif.Lemmas.JsonDecode
import Verif.Lemmas.Npm
/-! # Decoding of package-lock.json -/
namespace Osv
open Str Spec

namespace Npm

/-- Fields of `NpmLockDependency`, for the generic decoder. -/
def depField (f : Str) (v : JVal) (s : Str × NpmDeps) : Option (Str × NpmDeps) :=
  if f = g!"version" then (Json.decStr v s.1).map fun x => (x, s.2) else (decNpmDeps v s.2).map fun x => (s.1, x)

theorem decMembers_eq : ∀ (m : JMembers) (version : Str) (deps : NpmDeps),
    decNpmDepMembers m version deps =
      (Json.decMembers [g!"version", g!"dependencies"] depField m.toList (version, deps)).map fun s => .mk s.1 s.2
  | .nil, version, deps => by simp [decNpmDepMembers, JMembers.toList, Json.decMembers]
  | .cons k v rest, version, deps => by
    have ih := decMembers_eq rest
    simp only [decNpmDepMembers, JMembers.toList, Json.decMembers]
    cases Json.fieldOf [g!"version", g!"dependencies"] k with
    | none => exact ih version deps
    | some f =>
      simp only [depField]
      by_cases hf : f = g!"version"
      · rw [if_pos hf, if_pos hf]
        cases Json.decStr v version with
        | none => rfl
        | some x => exact ih x deps
      · rw [if_neg hf, if_neg hf]
        cases decNpmDeps v deps with
        | none => rfl
        | some x => exact ih version x

theorem decEntries_all {α : Type} (dec : JVal → Option α) (l : List (Str × JVal)) (old m : SMap α)
    (h : Json.decEntries dec l old = some m) (x : Str × JVal) (hx : x ∈ l) : ∃ a, dec x.2 = some a := by
  induction l generalizing old with
  | nil => cases hx
  | cons y l ih =>
    obtain ⟨k, v⟩ := y
    unfold Json.decEntries at h
    obtain ⟨a, h1, h2⟩ := Option.bind_eq_some_iff.1 h
    rcases List.mem_cons.1 hx with rfl | hx
    · exact ⟨a, h1⟩
    · exact ih _ h2 hx

/-- Names at the top of a tree. -/
def topNames : NpmDeps → List Str
  | .nil => []
  | .cons n _ rest => n :: topNames rest

theorem topNames_set (t : NpmDeps) (k : Str) (d : NpmDep) (j : Str) : j ∈ topNames (t.set k d) ↔ j = k ∨ j ∈ topNames t := by
  match t with
  | .nil => simp [NpmDeps.set, topNames]
  | .cons n e rest =>
    unfold NpmDeps.set
    by_cases h : n = k
    · rw [if_pos h]
      simp only [topNames, List.mem_cons]
      constructor
      · exact Or.inr
      · rintro (rfl | h')
        · exact Or.inl h.symm
        · exact h'
    · rw [if_neg h]
      simp only [topNames, List.mem_cons, topNames_set rest k d j]
      constructor
      · rintro (h | h | h)
        · exact Or.inr (Or.inl h)
        · exact Or.inl h
        · exact Or.inr (Or.inr h)
      · rintro (h | h | h)
        · exact Or.inr (Or.inl h)
        · exact Or.inl h
        · exact Or.inr (Or.inr h)

theorem depIn_set (t : NpmDeps) (k version : Str) (deps : NpmDeps) (hk : k ∉ topNames t) (n v : Str) :
    NpmDepIn (t.set k (.mk version deps)) n v ↔ NpmDepIn t n v ∨ (n = k ∧ v = version) ∨ NpmDepIn deps n v := by
  match t with
  | .nil => simp [NpmDeps.set, depIn_cons, depIn_nil]
  | .cons m (.mk w ds) rest =>
    simp only [topNames, List.mem_cons, not_or] at hk
    unfold NpmDeps.set
    rw [if_neg (Ne.symm hk.1), depIn_cons, depIn_cons, depIn_set rest k version deps hk.2]
    constructor
    · rintro (h | h | h | h | h)
      · exact Or.inl (Or.inl h)
      · exact Or.inl (Or.inr (Or.inl h))
      · exact Or.inl (Or.inr (Or.inr h))
      · exact Or.inr (Or.inl h)
      · exact Or.inr (Or.inr h)
    · rintro ((h | h | h) | h | h)
      · exact Or.inl h
      · exact Or.inr (Or.inl h)
      · exact Or.inr (Or.inr (Or.inl h))
      · exact Or.inr (Or.inr (Or.inr (Or.inl h)))
      · exact Or.inr (Or.inr (Or.inr (Or.inr h)))

/-- A decoded `dependencies` object: from nothing. -/
theorem decNpmDeps_depIn_of {v : JVal} {t : NpmDeps} (h : decNpmDeps v .nil = some t)
    (hA : ∀ m, v = .obj m → ∀ t, decNpmDepEntries m .nil = some t → ∀ n w, NpmDepIn t n w ↔ NpmJsonDep m n w) (n w : Str) :
    NpmDepIn t n w ↔ ∃ m, v = .obj m ∧ NpmJsonDep m n w := by
  cases v with
  | obj m =>
    simp only [decNpmDeps] at h
    rw [hA m rfl t h n w]
    exact ⟨fun h => ⟨m, rfl, h⟩, fun ⟨_, e, h⟩ => by injection e with e; rw [e]; exact h⟩
  | null =>
    simp only [decNpmDeps, Option.some.injEq] at h
    subst h
    exact ⟨fun h => absurd h depIn_nil, fun ⟨_, e, _⟩ => by cases e⟩
  | bool b => simp [decNpmDeps] at h
  | num b => simp [decNpmDeps] at h
  | str b => simp [decNpmDeps] at h
  | arr b => simp [decNpmDeps] at h

/-- One decoded dependency. -/
theorem decNpmDep_spec {v : JVal} {version : Str} {deps : NpmDeps} (h : decNpmDep v = some (.mk version deps))
    (hp : ∀ o, v = .obj o → PlainKeys [g!"version", g!"dependencies"] o)
    (hA : ∀ o ds, v = .obj o → Member o g!"dependencies" (.obj ds) → ∀ t, decNpmDepEntries ds .nil = some t →
      ∀ n w, NpmDepIn t n w ↔ NpmJsonDep ds n w) :
    (v = .null ∧ version = [] ∧ deps = .nil) ∨
    ∃ o, v = .obj o ∧ TextField o g!"version" version ∧
      ∀ n w, NpmDepIn deps n w ↔ ∃ ds, Member o g!"dependencies" (.obj ds) ∧ NpmJsonDep ds n w := by
  cases v with
  | null =>
    simp only [decNpmDep, Option.some.injEq, NpmDep.mk.injEq] at h
    exact Or.inl ⟨rfl, h.1.symm, h.2.symm⟩
  | obj o =>
    right
    simp only [decNpmDep] at h
    rw [decMembers_eq] at h
    obtain ⟨s, hs, e⟩ := Option.map_eq_some_iff.1 h
    simp only [NpmDep.mk.injEq] at e
    obtain ⟨rfl, rfl⟩ := e
    have hpo := hp o rfl
    refine ⟨o, rfl, ?_, ?_⟩
    · refine Json.decMembers_text g!"version" (·.1) (by simp) ?_ ?_ o hpo _ _ rfl hs
      · intro v s s' h
        unfold depField at h
        rw [if_pos rfl] at h
        obtain ⟨x, hx, rfl⟩ := Option.map_eq_some_iff.1 h
        exact hx
      · intro g _ hne v s s' h
        unfold depField at h
        rw [if_neg hne] at h
        obtain ⟨x, hx, rfl⟩ := Option.map_eq_some_iff.1 h
        rfl
    · intro n w
      have hfield := Json.decMembers_field g!"dependencies" (·.2) decNpmDeps (by simp) (by
        intro v s s' h
        unfold depField at h
        rw [if_neg (by decide)] at h
        obtain ⟨x, hx, rfl⟩ := Option.map_eq_some_iff.1 h
        exact hx) (by
        intro g hg hne v s s' h
        have : g = g!"version" := by
          simp only [List.mem_cons, List.not_mem_nil, or_false] at hg
          exact hg.resolve_right hne
        unfold depField at h
        rw [if_pos this] at h
        obtain ⟨x, hx, rfl⟩ := Option.map_eq_some_iff.1 h
        rfl) o.toList hpo.1 hpo.2 _ _ hs
      rcases hfield with ⟨v, hv, e⟩ | ⟨hv, e⟩
      · dsimp only at e
        rw [decNpmDeps_depIn_of e (fun m em t ht n w => hA o m rfl (em ▸ hv) t ht n w)]
        constructor
        · rintro ⟨m, rfl, h⟩; exact ⟨m, hv, h⟩
        · rintro ⟨ds, hds, h⟩; exact ⟨ds, Json.key_unique hpo.1 hv hds, h⟩
      · dsimp only at e
        rw [e]
        exact ⟨fun h => absurd h depIn_nil, fun ⟨ds, hds, _⟩ => absurd hds (hv _)⟩
  | bool b => simp [decNpmDep] at h
  | num b => simp [decNpmDep] at h
  | str b => simp [decNpmDep] at h
  | arr b => simp [decNpmDep] at h

/-- The dependencies of a member. -/
def MemberDep (x : Str × JVal) (n w : Str) : Prop :=
  (x.2 = .null ∧ n = x.1 ∧ w = []) ∨
  ∃ o, x.2 = .obj o ∧ ((n = x.1 ∧ TextField o g!"version" w) ∨ ∃ ds, Member o g!"dependencies" (.obj ds) ∧ NpmJsonDep ds n w)

theorem textField_unique {o : JMembers} {f s s' : Str} (hd : DistinctKeys o) (h : TextField o f s) (h' : TextField o f s') :
    s = s' := by
  rcases h with h | ⟨rfl, h⟩ <;> rcases h' with h' | ⟨rfl, h'⟩
  · have := Json.key_unique hd h h'; injection this
  · cases h' _ h
  · cases h _ h'
  · rfl

theorem entries_depIn : ∀ (m : JMembers) (old t : NpmDeps), decNpmDepEntries m old = some t →
    (m.toList.map (·.1)).Nodup → (∀ x ∈ m.toList, x.1 ∉ topNames old) →
    (∀ k o, Member m k (.obj o) → PlainKeys [g!"version", g!"dependencies"] o) →
    (∀ k o ds, Member m k (.obj o) → Member o g!"dependencies" (.obj ds) → ∀ t, decNpmDepEntries ds .nil = some t →
      ∀ n w, NpmDepIn t n w ↔ NpmJsonDep ds n w) →
    ∀ n w, NpmDepIn t n w ↔ NpmDepIn old n w ∨ ∃ x ∈ m.toList, MemberDep x n w
  | .nil, old, t, h, _, _, _, _, n, w => by
    simp only [decNpmDepEntries, Option.some.injEq] at h
    subst h
    simp [JMembers.toList]
  | .cons k v rest, old, t, h, hn, hd, hp, hA, n, w => by
    simp only [JMembers.toList, List.map_cons, List.nodup_cons] at hn
    simp only [decNpmDepEntries] at h
    obtain ⟨d, h1, h2⟩ := Option.bind_eq_some_iff.1 h
    obtain ⟨version, deps⟩ := d
    have hk : k ∉ topNames old := hd (k, v) (by simp [JMembers.toList])
    have hspec := decNpmDep_spec h1 (fun o e => hp k o (by rw [← e]; simp [Member, JMembers.toList]))
      (fun o ds e => hA k o ds (by rw [← e]; simp [Member, JMembers.toList]))
    have ih := entries_depIn rest _ t h2 hn.2 (by
        intro x hx
        rw [topNames_set]
        rintro (e | e)
        · exact hn.1 (e ▸ List.mem_map.2 ⟨x, hx, rfl⟩)
        · exact hd x (by simp [JMembers.toList, hx]) e)
      (fun k o hm => hp k o (by unfold Member at hm ⊢; simp [JMembers.toList, hm]))
      (fun k o ds hm => hA k o ds (by unfold Member at hm ⊢; simp [JMembers.toList, hm])) n w
    rw [ih, depIn_set _ _ _ _ hk]
    have hone : ((n = k ∧ w = version) ∨ NpmDepIn deps n w) ↔ MemberDep (k, v) n w := by
      unfold MemberDep
      rcases hspec with ⟨rfl, rfl, rfl⟩ | ⟨o, rfl, hv, hdeps⟩
      · constructor
        · rintro (h | h)
          · exact Or.inl ⟨rfl, h⟩
          · exact absurd h depIn_nil
        · rintro (⟨_, h⟩ | ⟨o, e, _⟩)
          · exact Or.inl h
          · cases e
      · constructor
        · rintro (⟨rfl, rfl⟩ | h)
          · exact Or.inr ⟨o, rfl, Or.inl ⟨rfl, hv⟩⟩
          · exact Or.inr ⟨o, rfl, Or.inr ((hdeps n w).1 h)⟩
        · rintro (⟨e, _⟩ | ⟨o', e, h⟩)
          · cases e
          · injection e with e
            subst e
            have hpo := (hp k o (by simp [Member, JMembers.toList])).1
            rcases h with ⟨e, hw⟩ | h
            · exact Or.inl ⟨e, textField_unique hpo hw hv⟩
            · exact Or.inr ((hdeps n w).2 h)
    simp only [JMembers.toList, List.mem_cons]
    constructor
    · rintro ((h | h) | ⟨x, hx, h⟩)
      · exact Or.inl h
      · exact Or.inr ⟨_, Or.inl rfl, hone.1 h⟩
      · exact Or.inr ⟨x, Or.inr hx, h⟩
    · rintro (h | ⟨x, rfl | hx, h⟩)
      · exact Or.inl (Or.inl h)
      · exact Or.inl (Or.inr (hone.2 h))
      · exact Or.inr ⟨x, hx, h⟩

theorem jsonDep_iff (m : JMembers) (n w : Str) : NpmJsonDep m n w ↔ ∃ x ∈ m.toList, MemberDep x n w := by
  constructor
  · intro h
    cases h with
    | here h1 h2 => exact ⟨_, h1, Or.inr ⟨_, rfl, Or.inl ⟨rfl, h2⟩⟩⟩
    | null h1 => exact ⟨_, h1, Or.inl ⟨rfl, rfl, rfl⟩⟩
    | inner h1 h2 h3 => exact ⟨_, h1, Or.inr ⟨_, rfl, Or.inr ⟨_, h2, h3⟩⟩⟩
  · rintro ⟨⟨k, v⟩, hx, ⟨e, rfl, rfl⟩ | ⟨o, e, ⟨rfl, h⟩ | ⟨ds, h1, h2⟩⟩⟩
    · dsimp only at e; subst e; exact .null hx
    · dsimp only at e; subst e; exact .here hx h
    · dsimp only at e; subst e; exact .inner hx h1 h2

/-- A plain `dependencies` object is decoded into the tree of its dependencies. -/
theorem decoded_depIn {m : JMembers} (hp : PlainNpmDeps m) : ∀ t, decNpmDepEntries m .nil = some t →
    ∀ n w, NpmDepIn t n w ↔ NpmJsonDep m n w := by
  induction hp with
  | mk hd hp _ ih =>
    intro t h n w
    rw [entries_depIn _ .nil t h hd (by simp [topNames]) hp ih, jsonDep_iff]
    exact ⟨fun h => h.resolve_left depIn_nil, Or.inr⟩

theorem step_packages_none {g : Str} {v : JVal} {s s' : NpmLockfile} (h : npmLockfileStep g v s = some s')
    (hg : g ≠ g!"packages") (hg' : g ∈ [g!"lockfileVersion", g!"dependencies", g!"packages"]) : s'.packages = s.packages := by
  unfold npmLockfileStep at h
  by_cases h1 : g = g!"lockfileVersion"
  · rw [if_pos h1] at h
    obtain ⟨_, _, rfl⟩ := Option.map_eq_some_iff.1 h
    rfl
  · rw [if_neg h1] at h
    by_cases h2 : g = g!"dependencies"
    · rw [if_pos h2] at h
      obtain ⟨_, _, rfl⟩ := Option.map_eq_some_iff.1 h
      rfl
    · simp only [List.mem_cons, List.not_mem_nil, or_false] at hg'
      rcases hg' with h | h | h
      · exact absurd h h1
      · exact absurd h h2
      · exact absurd h hg

theorem step_packages {v : JVal} {s s' : NpmLockfile} (h : npmLockfileStep g!"packages" v s = some s') :
    Json.decMap decNpmPackage v s.packages = some s'.packages := by
  unfold npmLockfileStep at h
  rw [if_neg (by decide), if_neg (by decide)] at h
  obtain ⟨x, hx, rfl⟩ := Option.map_eq_some_iff.1 h
  exact hx

theorem step_deps {v : JVal} {s s' : NpmLockfile} (h : npmLockfileStep g!"dependencies" v s = some s') :
    decNpmDeps v s.dependencies = some s'.dependencies := by
  unfold npmLockfileStep at h
  rw [if_neg (by decide), if_pos rfl] at h
  obtain ⟨x, hx, rfl⟩ := Option.map_eq_some_iff.1 h
  exact hx

theorem step_deps_other {g : Str} {v : JVal} {s s' : NpmLockfile} (h : npmLockfileStep g v s = some s')
    (hg : g ≠ g!"dependencies") : s'.dependencies = s.dependencies := by
  unfold npmLockfileStep at h
  rw [if_neg hg] at h
  by_cases h1 : g = g!"lockfileVersion"
  · rw [if_pos h1] at h
    obtain ⟨_, _, rfl⟩ := Option.map_eq_some_iff.1 h
    rfl
  · rw [if_neg h1] at h
    obtain ⟨_, _, rfl⟩ := Option.map_eq_some_iff.1 h
    rfl

/-- The lockfile behind a text with dependencies only. -/
theorem v1_decoded {content : Str} {deps : JMembers} (h : NpmV1File content deps) :
    (Json.parse content).bind decNpmLockfile = none ∨
    ∃ l, (Json.parse content).bind decNpmLockfile = some (some l) ∧ l.packages = none ∧
      ∀ n w, NpmDepIn l.dependencies n w ↔ NpmJsonDep deps n w := by
  obtain ⟨doc, hj, hk, hm, hp, hn⟩ := h
  rw [hj]
  simp only [Option.bind_some, decNpmLockfile, Json.decStruct]
  cases hd : Json.decMembers [g!"lockfileVersion", g!"dependencies", g!"packages"] npmLockfileStep doc.toList {} with
  | none => exact Or.inl rfl
  | some l =>
    refine Or.inr ⟨l, rfl, ?_, ?_⟩
    · rcases Json.decMembers_field g!"packages" (·.packages) (Json.decMap decNpmPackage) (by simp)
        (fun v s s' h => step_packages h) (fun g hg hne v s s' h => step_packages_none h hne hg) doc.toList hk.1 hk.2 _ _ hd with
        ⟨v, hv, e⟩ | ⟨_, e⟩
      · rw [hn v hv] at e
        simpa [Json.decMap] using e.symm
      · exact e
    · rcases Json.decMembers_field g!"dependencies" (·.dependencies) decNpmDeps (by simp)
        (fun v s s' h => step_deps h) (fun g _ hne v s s' h => step_deps_other h hne) doc.toList hk.1 hk.2 _ _ hd with
        ⟨v, hv, e⟩ | ⟨hv, _⟩
      · have := Json.key_unique hk.1 hv hm
        subst this
        dsimp only at e
        simp only [decNpmDeps] at e
        exact decoded_depIn hp _ e
      · exact absurd hm (hv _)

theorem package_field {g : Str} {v : JVal} {s s' : NpmPackage} (h : npmPackageStep g v s = some s') :
    (g = g!"name" → Json.decStr v s.name = some s'.name) ∧ (g ≠ g!"name" → s'.name = s.name) ∧
    (g = g!"version" → Json.decStr v s.version = some s'.version) ∧ (g ≠ g!"version" → s'.version = s.version) ∧
    (g = g!"resolved" → Json.decStr v s.resolved = some s'.resolved) ∧ (g ≠ g!"resolved" → s'.resolved = s.resolved) := by
  unfold npmPackageStep at h
  by_cases h1 : g = g!"name"
  · rw [if_pos h1] at h
    obtain ⟨x, hx, rfl⟩ := Option.map_eq_some_iff.1 h
    subst h1
    refine ⟨fun _ => hx, fun h => absurd rfl h, fun h => by simp at h, fun _ => rfl, fun h => by simp at h, fun _ => rfl⟩
  · rw [if_neg h1] at h
    by_cases h2 : g = g!"version"
    · rw [if_pos h2] at h
      obtain ⟨x, hx, rfl⟩ := Option.map_eq_some_iff.1 h
      subst h2
      exact ⟨fun h => by simp at h, fun _ => rfl, fun _ => hx, fun h => absurd rfl h, fun h => by simp at h, fun _ => rfl⟩
    · rw [if_neg h2] at h
      by_cases h3 : g = g!"resolved"
      · rw [if_pos h3] at h
        obtain ⟨x, hx, rfl⟩ := Option.map_eq_some_iff.1 h
        subst h3
        exact ⟨fun h => by simp at h, fun _ => rfl, fun h => by simp at h, fun _ => rfl, fun _ => hx, fun h => absurd rfl h⟩
      · rw [if_neg h3] at h
        obtain ⟨x, hx, rfl⟩ := Option.map_eq_some_iff.1 h
        exact ⟨fun h => absurd h h1, fun _ => rfl, fun h => absurd h h2, fun _ => rfl, fun h => absurd h h3, fun _ => rfl⟩

/-- A decoded entry of `packages`. -/
theorem decNpmPackage_spec {v : JVal} {d : NpmPackage} (h : decNpmPackage v = some d)
    (hp : ∀ o, v = .obj o → PlainKeys [g!"name", g!"version", g!"resolved", g!"dependencies"] o) :
    (v = .null ∧ d = {}) ∨ ∃ o, v = .obj o ∧ TextField o g!"name" d.name ∧ TextField o g!"version" d.version ∧
      TextField o g!"resolved" d.resolved := by
  unfold decNpmPackage Json.decStruct at h
  cases v with
  | null => injection h with h; exact Or.inl ⟨rfl, h.symm⟩
  | obj o =>
    right
    have hpo := hp o rfl
    refine ⟨o, rfl, ?_, ?_, ?_⟩
    · exact Json.decMembers_text g!"name" (·.name) (by simp) (fun v s s' h => (package_field h).1 rfl)
        (fun g _ hne v s s' h => (package_field h).2.1 hne) o hpo _ _ rfl h
    · exact Json.decMembers_text g!"version" (·.version) (by simp) (fun v s s' h => (package_field h).2.2.1 rfl)
        (fun g _ hne v s s' h => (package_field h).2.2.2.1 hne) o hpo _ _ rfl h
    · exact Json.decMembers_text g!"resolved" (·.resolved) (by simp) (fun v s s' h => (package_field h).2.2.2.2.1 rfl)
        (fun g _ hne v s s' h => (package_field h).2.2.2.2.2 hne) o hpo _ _ rfl h
  | bool b => cases h
  | num b => cases h
  | str b => cases h
  | arr b => cases h

/-- The lockfile behind a text with packages. -/
theorem v2_decoded {content : Str} {packages : JMembers} (h : NpmV2File content packages) :
    (Json.parse content).bind decNpmLockfile = none ∨
    ∃ l ps, (Json.parse content).bind decNpmLockfile = some (some l) ∧ l.packages = some ps ∧
      ∀ path name version resolved, NpmJsonPackage packages path name version resolved ↔
        path ≠ [] ∧ (path, (⟨name, version, resolved⟩ : NpmPackage)) ∈ ps := by
  obtain ⟨doc, hj, hk, hm, hp, hn⟩ := h
  rw [hj]
  simp only [Option.bind_some, decNpmLockfile, Json.decStruct]
  cases hd : Json.decMembers [g!"lockfileVersion", g!"dependencies", g!"packages"] npmLockfileStep doc.toList {} with
  | none => exact Or.inl rfl
  | some l =>
    rcases Json.decMembers_field g!"packages" (·.packages) (Json.decMap decNpmPackage) (by simp)
      (fun v s s' h => step_packages h) (fun g hg hne v s s' h => step_packages_none h hne hg) doc.toList hk.1 hk.2 _ _ hd with
      ⟨v, hv, e⟩ | ⟨hv, _⟩
    · have := Json.key_unique hk.1 hv hm
      subst this
      simp only [Json.decMap, Option.getD_none] at e
      obtain ⟨ps, h1, h2⟩ := Option.map_eq_some_iff.1 e
      refine Or.inr ⟨l, ps, rfl, h2.symm, ?_⟩
      intro path name version resolved
      rw [Json.decEntries_mem _ _ _ _ h1 hp (by simp)]
      constructor
      · intro h
        cases h with
        | obj hne hmem hna hve hre =>
          refine ⟨hne, Or.inr ⟨_, hmem, ?_⟩⟩
          obtain ⟨d, hd⟩ := decEntries_all _ _ _ _ h1 _ hmem
          dsimp only at hd
          rcases decNpmPackage_spec hd (fun o' e' => by injection e' with e'; subst e'; exact hn _ _ hmem) with ⟨e', _⟩ | ⟨o', e', a1, a2, a3⟩
          · cases e'
          · injection e' with e'
            subst e'
            have hdist := (hn _ _ hmem).1
            rw [hd, textField_unique hdist hna a1, textField_unique hdist hve a2, textField_unique hdist hre a3]
        | null hne hmem => exact ⟨hne, Or.inr ⟨_, hmem, rfl⟩⟩
      · rintro ⟨hne, h | ⟨v, hv, hdv⟩⟩
        · cases h
        · rcases decNpmPackage_spec hdv (fun o e' => by subst e'; exact hn _ _ hv) with ⟨rfl, e'⟩ | ⟨o, rfl, a1, a2, a3⟩
          · simp only [NpmPackage.mk.injEq] at e'
            obtain ⟨rfl, rfl, rfl⟩ := e'
            exact .null hne hv
          · exact .obj hne hv a1 a2 a3
    · exact absurd hm (hv _)

end Npm
end Osv
