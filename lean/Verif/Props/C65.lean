import Verif.Lemmas.JsonTexts
/-!
# C65: Pipfile.lock

The first two bytes of every version are cut off. A version of one byte makes the program panic (`C65_counterexample`), and
packages are kept under `name@version`, so that names with `@` can hide others (`C65_collision_counterexample`).
-/
namespace Osv
open Str Spec

namespace Pipenv

theorem drop_eq (v : Str) : dropBytes 2 (g!"==" ++ v) = some v := by
  have h : ('=' : Char).utf8Size = 1 := by decide
  rw [show g!"==" ++ v = '=' :: '=' :: v from rfl, dropBytes]
  rw [if_pos (by omega)]
  rw [show 1 + 1 - ('=' : Char).utf8Size = 0 + 1 by omega, dropBytes]
  rw [if_pos (by omega)]
  rw [show 0 + 1 - ('=' : Char).utf8Size = 0 by omega, dropBytes]

theorem drop_none (s : Str) (hs : s ≠ []) : dropBytes 2 s = none ↔ ∃ c, s = [c] ∧ c.utf8Size = 1 := by
  cases s with
  | nil => exact absurd rfl hs
  | cons c r =>
    have hp := c.utf8Size_pos
    rw [dropBytes]
    by_cases h : c.utf8Size ≤ 1 + 1
    · rw [if_pos h]
      by_cases h1 : c.utf8Size = 1
      · rw [h1]
        cases r with
        | nil => simp [dropBytes, h1]
        | cons d r =>
          rw [show 1 + 1 - 1 = 0 + 1 from rfl, dropBytes]
          have hd := d.utf8Size_pos
          by_cases h2 : d.utf8Size ≤ 0 + 1
          · rw [if_pos h2, show 0 + 1 - d.utf8Size = 0 by omega, dropBytes]; simp
          · rw [if_neg h2]; simp
      · rw [show 1 + 1 - c.utf8Size = 0 by omega, dropBytes]
        simp only [reduceCtorEq, List.cons.injEq, false_iff, not_exists, not_and]
        rintro x ⟨rfl, _⟩ h'
        exact h1 h'
    · rw [if_neg h]
      simp only [reduceCtorEq, List.cons.injEq, false_iff, not_exists, not_and]
      rintro x ⟨rfl, _⟩ h'
      omega

/-- The key and package of an entry. -/
def Reads (l : SMap Str) (x : Str × PackageDetails) : Prop := ∃ name version v, (name, version) ∈ l ∧ version ≠ [] ∧
  dropBytes 2 version = some v ∧ x = (name ++ g!"@" ++ v, pkg g!"PyPI" name v [])

theorem loop_none (packages : SMap PackageDetails) (l : SMap Str) :
    pipenvLoop packages l = none ↔ ∃ x ∈ l, ∃ c, x.2 = [c] ∧ c.utf8Size = 1 := by
  induction l generalizing packages with
  | nil => simp [pipenvLoop]
  | cons y l ih =>
    obtain ⟨n, v⟩ := y
    unfold pipenvLoop
    by_cases hv : v = []
    · rw [if_pos hv, ih]; simp [hv]
    · rw [if_neg hv]
      cases hd : dropBytes 2 v with
      | none =>
        obtain ⟨c, hc⟩ := (drop_none v hv).1 hd
        exact ⟨fun _ => ⟨(n, v), by simp, c, hc⟩, fun _ => rfl⟩
      | some w =>
        rw [Option.bind_some, ih]
        constructor
        · rintro ⟨x, hx, h⟩; exact ⟨x, by simp [hx], h⟩
        · rintro ⟨x, hx, h⟩
          rcases List.mem_cons.1 hx with rfl | hx
          · have := (drop_none v hv).2 h
            rw [hd] at this
            cases this
          · exact ⟨x, hx, h⟩

theorem loop_adds (packages m : SMap PackageDetails) (l : SMap Str) (h : pipenvLoop packages l = some m) :
    DetailMap.Adds packages m (Reads l) := by
  induction l generalizing packages with
  | nil =>
    unfold pipenvLoop at h
    injection h with h
    subst h
    exact (DetailMap.Adds.refl _).congr (by simp [Reads])
  | cons y l ih =>
    obtain ⟨n, v⟩ := y
    unfold pipenvLoop at h
    by_cases hv : v = []
    · rw [if_pos hv] at h
      refine (ih _ h).congr fun x => ?_
      constructor
      · rintro ⟨n', v', w, hm, h⟩; exact ⟨n', v', w, by simp [hm], h⟩
      · rintro ⟨n', v', w, hm, h⟩
        rcases List.mem_cons.1 hm with e | hm
        · injection e with e1 e2
          exact absurd (e2.trans hv) h.1
        · exact ⟨n', v', w, hm, h⟩
    · rw [if_neg hv] at h
      obtain ⟨w, hd, h⟩ := Option.bind_eq_some_iff.1 h
      refine ((DetailMap.Adds.set packages (n ++ g!"@" ++ w, pkg g!"PyPI" n w [])).trans (ih _ h)).congr fun x => ?_
      constructor
      · rintro (rfl | ⟨n', v', w', hm, h⟩)
        · exact ⟨n, v, w, by simp, hv, hd, rfl⟩
        · exact ⟨n', v', w', by simp [hm], h⟩
      · rintro ⟨n', v', w', hm, h1, h2, rfl⟩
        rcases List.mem_cons.1 hm with e | hm
        · injection e with e1 e2
          subst e1 e2
          rw [hd] at h2
          injection h2 with h2
          exact Or.inl (by rw [h2])
        · exact Or.inr ⟨n', v', w', hm, h1, h2, rfl⟩

theorem step_field {g : Str} {v : JVal} {s s' : PipenvLock} (h : pipenvStep g v s = some s')
    (hg : g ∈ [g!"default", g!"develop"]) :
    (g = g!"default" → Json.decMap decPipenvPackage v s.packages = some s'.packages) ∧
    (g ≠ g!"default" → s'.packages = s.packages) ∧
    (g = g!"develop" → Json.decMap decPipenvPackage v s.packagesDev = some s'.packagesDev) ∧
    (g ≠ g!"develop" → s'.packagesDev = s.packagesDev) := by
  unfold pipenvStep at h
  by_cases h1 : g = g!"default"
  · rw [if_pos h1] at h
    obtain ⟨x, hx, rfl⟩ := Option.map_eq_some_iff.1 h
    subst h1
    exact ⟨fun _ => hx, fun h => absurd rfl h, fun h => by simp at h, fun _ => rfl⟩
  · rw [if_neg h1] at h
    obtain ⟨x, hx, rfl⟩ := Option.map_eq_some_iff.1 h
    have : g = g!"develop" := by simpa [h1] using hg
    exact ⟨fun h => absurd h h1, fun _ => rfl, fun _ => hx, fun h => absurd this h⟩

theorem texts_decode {o : JMembers} (ht : TextsTyped o g!"version") : ∀ x ∈ o.toList, ∃ a, decPipenvPackage x.2 = some a := by
  intro x hx
  obtain ⟨o', ho', hk, hw⟩ := ht.2 x.1 x.2 hx
  obtain ⟨s, hs, _⟩ := Json.decText_ok ho' hk hw
  exact ⟨s, hs⟩

/-- How a file is decoded. -/
theorem decoded {content : Str} {default develop : JMembers} (h : PipenvFile content default develop) :
    ∃ l, (Json.parse content).bind decPipenvLock = some (some l) ∧
      (∀ name text, TextOf default name g!"version" text ↔ (name, text) ∈ l.packages.getD []) ∧
      ∀ name text, TextOf develop name g!"version" text ↔ (name, text) ∈ l.packagesDev.getD [] := by
  obtain ⟨doc, hj, hk, h1, h2, t1, t2⟩ := h
  obtain ⟨l, hl⟩ := Json.decMembers_total (fields := [g!"default", g!"develop"]) (step := pipenvStep) doc.toList hk.2 (by
    intro f hf v hm s
    unfold pipenvStep
    by_cases h : f = g!"default"
    · rw [if_pos h]
      rcases h1 with ⟨w, hw, ho⟩ | ⟨hn, _⟩
      · have e : v = w := Json.key_unique hk.1 (k := g!"default") (by rw [← h]; exact hm) hw
        rw [e]
        obtain ⟨r, hr⟩ := Json.decMap_total (dec := decPipenvPackage) ho (texts_decode t1) s.packages
        exact ⟨_, by rw [hr]; rfl⟩
      · exact absurd (h ▸ hm) (hn v)
    · have h' : f = g!"develop" := by simpa [h] using hf
      rw [if_neg h]
      rcases h2 with ⟨w, hw, ho⟩ | ⟨hn, _⟩
      · have e : v = w := Json.key_unique hk.1 (k := g!"develop") (by rw [← h']; exact hm) hw
        rw [e]
        obtain ⟨r, hr⟩ := Json.decMap_total (dec := decPipenvPackage) ho (texts_decode t2) s.packagesDev
        exact ⟨_, by rw [hr]; rfl⟩
      · exact absurd (h' ▸ hm) (hn v)) {}
  refine ⟨l, ?_, ?_, ?_⟩
  · rw [hj]
    simp only [Option.bind_some, decPipenvLock, Json.decStruct]
    rw [hl]
    rfl
  · have := Json.decMembers_map g!"default" (·.packages) decPipenvPackage (by simp)
      (fun v s s' h => (step_field h (by simp)).1 rfl) (fun g hg hne v s s' h => (step_field h hg).2.1 hne) doc hk default h1
      _ _ rfl hl
    obtain ⟨r, hr, hm⟩ := Json.decTexts t1
    have hr : Json.decEntries decPipenvPackage default.toList [] = some r := hr
    rw [hr] at this
    injection this with this
    rw [← this]
    exact hm
  · have := Json.decMembers_map g!"develop" (·.packagesDev) decPipenvPackage (by simp)
      (fun v s s' h => (step_field h (by simp)).2.2.1 rfl) (fun g hg hne v s s' h => (step_field h hg).2.2.2 hne) doc hk develop h2
      _ _ rfl hl
    obtain ⟨r, hr, hm⟩ := Json.decTexts t2
    have hr : Json.decEntries decPipenvPackage develop.toList [] = some r := hr
    rw [hr] at this
    injection this with this
    rw [← this]
    exact hm

end Pipenv

variable {iter : SMap Str → SMap Str} {order : List PackageDetails → List PackageDetails}

/-- A package of one of the sections, with its version as it is written. -/
def PipenvListed (default develop : JMembers) (name version : Str) : Prop :=
  TextOf default name g!"version" version ∨ TextOf develop name g!"version" version

/-- The full claim: no panic, and exactly the packages with a version behind `==` are reported, each once. False:
`C65_counterexample`, `C65_collision_counterexample`. -/
def C65_full : Prop := ∀ (iter : SMap Str → SMap Str) (order : List PackageDetails → List PackageDetails),
  (∀ l, (iter l).Perm l) → (∀ l, (order l).Perm l) → ∀ (content : Str) (default develop : JMembers),
  PipenvFile content default develop →
  ∃ pkgs, parsePipenvLock iter order (some content) = some (pkgs, false) ∧ pkgs.Nodup ∧
    ∀ p, p ∈ pkgs ↔ PipenvEntry default p ∨ PipenvEntry develop p

/-- The program panics exactly if some version is a single byte. -/
theorem C65_panic_iff (hi : ∀ l, (iter l).Perm l) (content : Str) (default develop : JMembers)
    (h : PipenvFile content default develop) :
    parsePipenvLock iter order (some content) = none ↔
      ∃ name c, PipenvListed default develop name [c] ∧ c.utf8Size = 1 := by
  obtain ⟨l, hl, h1, h2⟩ := Pipenv.decoded h
  unfold parsePipenvLock
  simp only [hl]
  rw [Option.map_eq_none_iff]
  have e1 := Pipenv.loop_none [] (iter (l.packages.getD []))
  have key : ∀ (m : SMap Str) (sec : JMembers), (∀ name text, TextOf sec name g!"version" text ↔ (name, text) ∈ m) →
      ((∃ x ∈ iter m, ∃ c, x.2 = [c] ∧ c.utf8Size = 1) ↔ ∃ name c, TextOf sec name g!"version" [c] ∧ c.utf8Size = 1) := by
    intro m sec hs
    constructor
    · rintro ⟨⟨n, v⟩, hx, c, rfl, hc⟩
      exact ⟨n, c, (hs n [c]).2 ((hi m).mem_iff.1 hx), hc⟩
    · rintro ⟨n, c, ht, hc⟩
      exact ⟨(n, [c]), (hi m).mem_iff.2 ((hs n [c]).1 ht), c, rfl, hc⟩
  cases hm : pipenvLoop [] (iter (l.packages.getD [])) with
  | none =>
    obtain ⟨n, c, ht, hc⟩ := (key _ _ h1).1 (e1.1 hm)
    exact ⟨fun _ => ⟨n, c, Or.inl ht, hc⟩, fun _ => rfl⟩
  | some m =>
    rw [Option.bind_some, Pipenv.loop_none, key _ _ h2]
    constructor
    · rintro ⟨n, c, ht, hc⟩; exact ⟨n, c, Or.inr ht, hc⟩
    · rintro ⟨n, c, ht | ht, hc⟩
      · rw [e1.2 ((key _ _ h1).2 ⟨n, c, ht, hc⟩)] at hm; cases hm
      · exact ⟨n, c, ht, hc⟩

/-- The result of a file whose versions are empty or begin with `==`. -/
theorem Pipenv.result (hi : ∀ l, (iter l).Perm l) (ho : ∀ l, (order l).Perm l) {content : Str} {default develop : JMembers}
    (h : PipenvFile content default develop)
    (hv : ∀ name version, PipenvListed default develop name version → version = [] ∨ ∃ v, version = g!"==" ++ v) :
    ∃ m pkgs, parsePipenvLock iter order (some content) = some (pkgs, false) ∧ pkgs.Perm (m.map (·.2)) ∧
      DetailMap.Adds [] m (fun x => (PipenvEntry default x.2 ∨ PipenvEntry develop x.2) ∧
        x.1 = x.2.name ++ g!"@" ++ x.2.version) := by
  have hnp : parsePipenvLock iter order (some content) ≠ none := by
    rw [Ne, C65_panic_iff hi content default develop h]
    rintro ⟨n, c, hl, _⟩
    rcases hv n [c] hl with h | ⟨v, h⟩
    · cases h
    · cases h
  obtain ⟨l, hl, h1, h2⟩ := Pipenv.decoded h
  unfold parsePipenvLock at hnp ⊢
  simp only [hl] at hnp ⊢
  cases hm : (pipenvLoop [] (iter (l.packages.getD []))).bind fun m => pipenvLoop m (iter (l.packagesDev.getD [])) with
  | none => rw [hm] at hnp; exact absurd rfl hnp
  | some m =>
    obtain ⟨m1, hm1, hm2⟩ := Option.bind_eq_some_iff.1 hm
    have hadds := (Pipenv.loop_adds _ _ _ hm1).trans (Pipenv.loop_adds _ _ _ hm2)
    have hread : ∀ (s : SMap Str) (sec : JMembers), (∀ name text, TextOf sec name g!"version" text ↔ (name, text) ∈ s) →
        (∀ name version, TextOf sec name g!"version" version → version = [] ∨ ∃ v, version = g!"==" ++ v) → ∀ x,
        Pipenv.Reads (iter s) x ↔ PipenvEntry sec x.2 ∧ x.1 = x.2.name ++ g!"@" ++ x.2.version := by
      intro s sec hs hv' x
      constructor
      · rintro ⟨n, v, w, hmem, hne, hd, rfl⟩
        have ht := (hs n v).2 ((hi s).mem_iff.1 hmem)
        rcases hv' n v ht with e | ⟨w', e⟩
        · exact absurd e hne
        · subst e
          rw [Pipenv.drop_eq] at hd
          injection hd with hd
          subst hd
          exact ⟨⟨n, w', ht, rfl⟩, rfl⟩
      · rintro ⟨⟨n, v, ht, e⟩, e2⟩
        obtain ⟨k, p⟩ := x
        dsimp only at e e2
        subst e e2
        exact ⟨n, _, v, (hi s).mem_iff.2 ((hs _ _).1 ht), by simp, Pipenv.drop_eq v, rfl⟩
    refine ⟨m, _, rfl, ho (m.map (·.2)), hadds.congr fun x => ?_⟩
    rw [hread _ _ h1 (fun n v h => hv n v (Or.inl h)), hread _ _ h2 (fun n v h => hv n v (Or.inr h)), ← or_and_right]

/-- Missing for the full claim: versions must be empty or begin with `==`, and names must not contain `@`. -/
theorem C65_partial (hi : ∀ l, (iter l).Perm l) (ho : ∀ l, (order l).Perm l) (content : Str) (default develop : JMembers)
    (h : PipenvFile content default develop)
    (hv : ∀ name version, PipenvListed default develop name version → version = [] ∨ ∃ v, version = g!"==" ++ v)
    (hat : ∀ name version, PipenvListed default develop name version → '@' ∉ name) :
    ∃ pkgs, parsePipenvLock iter order (some content) = some (pkgs, false) ∧ pkgs.Nodup ∧
      ∀ p, p ∈ pkgs ↔ PipenvEntry default p ∨ PipenvEntry develop p := by
  obtain ⟨m, pkgs, h1, h2, h3⟩ := Pipenv.result hi ho h hv
  have hform : ∀ p, PipenvEntry default p ∨ PipenvEntry develop p → '@' ∉ p.name ∧ p = pkg g!"PyPI" p.name p.version [] := by
    rintro p (⟨n, v, ht, rfl⟩ | ⟨n, v, ht, rfl⟩)
    · exact ⟨hat n _ (Or.inl ht), rfl⟩
    · exact ⟨hat n _ (Or.inr ht), rfl⟩
  obtain ⟨h4, h5⟩ := h3.exact (by
    rintro x y ⟨hx, ex⟩ ⟨hy, ey⟩ e
    rw [ex, ey] at e
    obtain ⟨e1, e2⟩ := DetailMap.key_inj (d := x.2) (e := y.2) e (hform _ hx).1 (hform _ hy).1
    rw [(hform _ hx).2, (hform _ hy).2, e1, e2]) (by
    rintro x y ⟨_, ex⟩ ⟨_, ey⟩ e
    rw [ex, ey, e]) h2
  refine ⟨pkgs, h1, h4, fun p => ?_⟩
  rw [h5]
  exact ⟨fun ⟨_, h, _⟩ => h, fun h => ⟨p.name ++ g!"@" ++ p.version, h, rfl⟩⟩

/-- For such versions the condition on the names is exact: all packages are reported if and only if no two different ones
share a key. -/
theorem C65_exact_iff (hi : ∀ l, (iter l).Perm l) (ho : ∀ l, (order l).Perm l) (content : Str) (default develop : JMembers)
    (h : PipenvFile content default develop)
    (hv : ∀ name version, PipenvListed default develop name version → version = [] ∨ ∃ v, version = g!"==" ++ v) :
    ∃ pkgs, parsePipenvLock iter order (some content) = some (pkgs, false) ∧
      ((∀ p, p ∈ pkgs ↔ PipenvEntry default p ∨ PipenvEntry develop p) ↔
        ∀ p q, PipenvEntry default p ∨ PipenvEntry develop p → PipenvEntry default q ∨ PipenvEntry develop q →
          p.name ++ g!"@" ++ p.version = q.name ++ g!"@" ++ q.version → p = q) := by
  obtain ⟨m, pkgs, h1, h2, h3⟩ := Pipenv.result hi ho h hv
  exact ⟨pkgs, h1, h3.exact_iff (E := fun p => PipenvEntry default p ∨ PipenvEntry develop p) h2⟩

/-- What cannot be read or is no JSON is an error. -/
theorem C65_error (content : Option Str) (h : ∀ c, content = some c → Json.parse c = none) :
    parsePipenvLock iter order content = some ([], true) := by
  unfold parsePipenvLock
  cases content with
  | none => rfl
  | some c => simp [h c rfl]

/-- A file with the given sections. -/
def pipenvText (default develop : List (Str × Str)) : Str :=
  Json.render (.obj (.cons g!"default" (.obj (Json.texts g!"version" default)) (.cons g!"develop" (.obj (Json.texts g!"version" develop)) .nil)))

theorem pipenvFile_render (default develop : List (Str × Str)) (h1 : (default.map (·.1)).Nodup) (h2 : (develop.map (·.1)).Nodup) :
    PipenvFile (pipenvText default develop) (Json.texts g!"version" default) (Json.texts g!"version" develop) := by
  refine ⟨_, Json.parse_render _ (by simp [Json.JOk, Json.JOkM, Json.texts_ok]), ?_, Or.inl ⟨_, by simp [Member, JMembers.toList], Or.inl rfl⟩,
    Or.inl ⟨_, by simp [Member, JMembers.toList], Or.inl rfl⟩, Json.texts_typed _ _ h1, Json.texts_typed _ _ h2⟩
  unfold PlainKeys DistinctKeys; simp [JMembers.toList]; decide

/-- A version `*` makes the program panic. -/
theorem C65_counterexample : ¬ C65_full := by
  intro h
  obtain ⟨pkgs, h1, _⟩ := h id id (fun _ => List.Perm.refl _) (fun _ => List.Perm.refl _) _ _ _
    (pipenvFile_render [(g!"a", g!"*")] [] (by decide) (by decide))
  rw [(C65_panic_iff (iter := id) (order := id) (fun _ => List.Perm.refl _) _ _ _ (pipenvFile_render [(g!"a", g!"*")] [] (by decide) (by decide))).2
    ⟨g!"a", '*', Or.inl ((Json.texts_text _ _ _ _).2 (by simp)), by decide⟩] at h1
  cases h1

/-- Even without versions of another form, names with `@` lose packages. -/
theorem C65_collision_counterexample : ¬ ∀ (content : Str) (default develop : JMembers), PipenvFile content default develop →
    (∀ name version, PipenvListed default develop name version → ∃ v, version = g!"==" ++ v) →
    ∃ pkgs, parsePipenvLock id id (some content) = some (pkgs, false) ∧ ∀ p, PipenvEntry default p → p ∈ pkgs := by
  intro h
  obtain ⟨pkgs, h1, h2⟩ := h _ _ _ (pipenvFile_render [(g!"a@1", g!"==2"), (g!"a", g!"==1@2")] [] (by decide) (by decide)) (by
    intro n v hl
    unfold PipenvListed at hl
    rw [Json.texts_text, Json.texts_text] at hl
    simp at hl
    rcases hl with ⟨_, rfl⟩ | ⟨_, rfl⟩ <;> exact ⟨_, rfl⟩)
  have h3 := h2 (pkg g!"PyPI" g!"a@1" g!"2" []) ⟨g!"a@1", g!"2", (Json.texts_text _ _ _ _).2 (by simp), rfl⟩
  have : parsePipenvLock id id (some (pipenvText [(g!"a@1", g!"==2"), (g!"a", g!"==1@2")] [])) =
      some ([pkg g!"PyPI" g!"a" g!"1@2" []], false) := by decide +kernel
  rw [this] at h1
  injection h1 with h1
  injection h1 with h1
  subst h1
  revert h3
  decide

/-- The hypotheses of `C65_partial` can be met. -/
example : PipenvFile (pipenvText [(g!"a", g!"==1"), (g!"b", [])] [(g!"a", g!"==1")])
      (Json.texts g!"version" [(g!"a", g!"==1"), (g!"b", [])]) (Json.texts g!"version" [(g!"a", g!"==1")]) ∧
    (∀ name version, PipenvListed (Json.texts g!"version" [(g!"a", g!"==1"), (g!"b", [])]) (Json.texts g!"version" [(g!"a", g!"==1")])
      name version → (version = [] ∨ ∃ v, version = g!"==" ++ v) ∧ '@' ∉ name) := by
  refine ⟨pipenvFile_render _ _ (by decide) (by decide), fun n v hl => ?_⟩
  unfold PipenvListed at hl
  rw [Json.texts_text, Json.texts_text] at hl
  simp at hl
  rcases hl with (⟨rfl, rfl⟩ | ⟨rfl, rfl⟩) | ⟨rfl, rfl⟩
  · exact ⟨Or.inr ⟨_, rfl⟩, by decide⟩
  · exact ⟨Or.inl rfl, by decide⟩
  · exact ⟨Or.inr ⟨_, rfl⟩, by decide⟩

end Osv
