import Verif.Lemmas.JsonTexts
/-!
# C64: packages.lock.json

The dependencies of all frameworks are collected in a map with key `name@resolved`, so that an entry is lost if a name contains
`@` and the key is that of another package (`C64_counterexample`).
-/
namespace Osv
open Str Spec

/-- The full claim: each dependency of a framework is reported once, and nothing else. False: `C64_counterexample`. -/
def C64_full : Prop := ∀ (iterDeps : SMap Str → SMap Str) (iterFrameworks : SMap (Option (SMap Str)) → SMap (Option (SMap Str)))
  (order : List PackageDetails → List PackageDetails), (∀ l, (iterDeps l).Perm l) → (∀ l, (iterFrameworks l).Perm l) →
  (∀ l, (order l).Perm l) → ∀ (content : Str) (frameworks : JMembers), NuGetFile content g!"1" frameworks →
  ∃ pkgs, parseNuGetLock iterDeps iterFrameworks order (some content) = some (pkgs, false) ∧ pkgs.Nodup ∧
    ∀ p, p ∈ pkgs ↔ NuGetEntry frameworks p

variable {iterDeps : SMap Str → SMap Str} {iterFrameworks : SMap (Option (SMap Str)) → SMap (Option (SMap Str))}
  {order : List PackageDetails → List PackageDetails}

/-- What the map of a well-formed file holds. -/
theorem NuGet.result (hi : ∀ l, (iterDeps l).Perm l) (hf : ∀ l, (iterFrameworks l).Perm l) (ho : ∀ l, (order l).Perm l)
    {content : Str} {frameworks : JMembers} (h : NuGetFile content g!"1" frameworks) :
    ∃ m pkgs, parseNuGetLock iterDeps iterFrameworks order (some content) = some (pkgs, false) ∧ pkgs.Perm (m.map (·.2)) ∧
      DetailMap.Adds [] m (fun x => NuGetEntry frameworks x.2 ∧ x.1 = x.2.name ++ g!"@" ++ x.2.version) := by
  obtain ⟨l, hl, hv, hm⟩ := NuGet.decoded h
  refine ⟨_, _, ?_, ho _, (NuGet.loop_adds iterDeps hi [] (iterFrameworks (l.dependencies.getD []))).congr ?_⟩
  · unfold parseNuGetLock
    simp only [hl, hv, ne_eq, not_true_eq_false, if_false]
  · rintro ⟨k, p⟩
    constructor
    · rintro ⟨f, hfm, ⟨n, r⟩, hy, e⟩
      injection e with e1 e2
      subst e1 e2
      obtain ⟨fw, v, deps, h1, h2, h3⟩ := (hm n r).2 ⟨f, (hf _).mem_iff.1 hfm, hy⟩
      exact ⟨⟨fw, v, deps, n, r, h1, h2, h3, rfl⟩, rfl⟩
    · rintro ⟨⟨fw, v, deps, n, r, h1, h2, h3, e1⟩, e2⟩
      dsimp only at e1 e2
      subst e1 e2
      obtain ⟨f, hfm, hy⟩ := (hm n r).1 ⟨fw, v, deps, h1, h2, h3⟩
      exact ⟨f, (hf _).mem_iff.2 hfm, (n, r), hy, rfl⟩

/-- Nothing is invented and no package is listed twice, in any file. -/
theorem C64_sound (hi : ∀ l, (iterDeps l).Perm l) (hf : ∀ l, (iterFrameworks l).Perm l) (ho : ∀ l, (order l).Perm l)
    (content : Str) (frameworks : JMembers) (h : NuGetFile content g!"1" frameworks) :
    ∃ pkgs, parseNuGetLock iterDeps iterFrameworks order (some content) = some (pkgs, false) ∧
      (∀ p ∈ pkgs, NuGetEntry frameworks p) ∧
      ∀ p, NuGetEntry frameworks p → ∃ q ∈ pkgs, q.name ++ g!"@" ++ q.version = p.name ++ g!"@" ++ p.version := by
  obtain ⟨m, pkgs, h1, h2, h3⟩ := NuGet.result hi hf ho h
  refine ⟨pkgs, h1, fun p hp => ?_, fun p hp => ?_⟩
  · obtain ⟨x, hx, rfl⟩ := List.mem_map.1 (h2.mem_iff.1 hp)
    rcases h3.1 x hx with h | h
    · cases h
    · exact h.1
  · have : p.name ++ g!"@" ++ p.version ∈ m.map (·.1) := (h3.2.1 _).2 (Or.inr ⟨(_, p), ⟨hp, rfl⟩, rfl⟩)
    obtain ⟨x, hx, e⟩ := List.mem_map.1 this
    rcases h3.1 x hx with h | h
    · cases h
    · exact ⟨x.2, h2.mem_iff.2 (List.mem_map.2 ⟨x, hx, rfl⟩), by rw [← h.2, e]⟩

/-- Missing for the full claim: names must not contain `@`. -/
theorem C64_partial (hi : ∀ l, (iterDeps l).Perm l) (hf : ∀ l, (iterFrameworks l).Perm l) (ho : ∀ l, (order l).Perm l)
    (content : Str) (frameworks : JMembers) (h : NuGetFile content g!"1" frameworks)
    (hat : ∀ p, NuGetEntry frameworks p → '@' ∉ p.name) :
    ∃ pkgs, parseNuGetLock iterDeps iterFrameworks order (some content) = some (pkgs, false) ∧ pkgs.Nodup ∧
      ∀ p, p ∈ pkgs ↔ NuGetEntry frameworks p := by
  obtain ⟨m, pkgs, h1, h2, h3⟩ := NuGet.result hi hf ho h
  obtain ⟨h4, h5⟩ := h3.exact (by
    rintro x y ⟨hx, ex⟩ ⟨hy, ey⟩ e
    rw [ex, ey] at e
    obtain ⟨e1, e2⟩ := DetailMap.key_inj (d := x.2) (e := y.2) e (hat _ hx) (hat _ hy)
    obtain ⟨_, _, _, n, r, _, _, _, hx⟩ := hx
    obtain ⟨_, _, _, n', r', _, _, _, hy⟩ := hy
    rw [hx, hy] at e1 e2
    dsimp only [pkg] at e1 e2
    rw [hx, hy, e1, e2]) (by
    rintro x y ⟨_, ex⟩ ⟨_, ey⟩ e
    rw [ex, ey, e]) h2
  refine ⟨pkgs, h1, h4, fun p => ?_⟩
  rw [h5]
  exact ⟨fun ⟨_, h, _⟩ => h, fun h => ⟨p.name ++ g!"@" ++ p.version, h, rfl⟩⟩

/-- The condition is exact: all packages are reported if and only if no two different ones share a key. -/
theorem C64_exact_iff (hi : ∀ l, (iterDeps l).Perm l) (hf : ∀ l, (iterFrameworks l).Perm l) (ho : ∀ l, (order l).Perm l)
    (content : Str) (frameworks : JMembers) (h : NuGetFile content g!"1" frameworks) :
    ∃ pkgs, parseNuGetLock iterDeps iterFrameworks order (some content) = some (pkgs, false) ∧
      ((∀ p, p ∈ pkgs ↔ NuGetEntry frameworks p) ↔ ∀ p q, NuGetEntry frameworks p → NuGetEntry frameworks q →
        p.name ++ g!"@" ++ p.version = q.name ++ g!"@" ++ q.version → p = q) := by
  obtain ⟨m, pkgs, h1, h2, h3⟩ := NuGet.result hi hf ho h
  exact ⟨pkgs, h1, h3.exact_iff h2⟩

/-- Files of another version are an error. -/
theorem C64_version (content version : Str) (frameworks : JMembers) (h : NuGetFile content version frameworks)
    (hv : version ≠ g!"1") : parseNuGetLock iterDeps iterFrameworks order (some content) = some ([], true) := by
  obtain ⟨l, hl, e, _⟩ := NuGet.decoded h
  unfold parseNuGetLock
  simp only [hl]
  rw [if_pos (by rw [e]; exact hv)]

/-- What cannot be read or is no JSON is an error. -/
theorem C64_error (content : Option Str) (h : ∀ c, content = some c → Json.parse c = none) :
    parseNuGetLock iterDeps iterFrameworks order content = some ([], true) := by
  unfold parseNuGetLock
  cases content with
  | none => rfl
  | some c => simp [h c rfl]

/-- A file with the given frameworks. -/
def nugetFrameworks : List (Str × List (Str × Str)) → JMembers
  | [] => .nil
  | (k, deps) :: l => .cons k (.obj (Json.texts g!"resolved" deps)) (nugetFrameworks l)

def nugetText (version : Str) (l : List (Str × List (Str × Str))) : Str :=
  Json.render (.obj (.cons g!"version" (.num version) (.cons g!"dependencies" (.obj (nugetFrameworks l)) .nil)))

theorem nugetFrameworks_toList (l : List (Str × List (Str × Str))) :
    (nugetFrameworks l).toList = l.map fun x => (x.1, .obj (Json.texts g!"resolved" x.2)) := by
  induction l with
  | nil => rfl
  | cons x l ih => simp [nugetFrameworks, JMembers.toList, ih]

theorem nugetFile_render (version : Str) (hv : Json.JOk (.num version)) (hint : Json.isInt64 version = true)
    (l : List (Str × List (Str × Str))) (hl : (l.map (·.1)).Nodup) (hd : ∀ x ∈ l, (x.2.map (·.1)).Nodup) :
    NuGetFile (nugetText version l) version (nugetFrameworks l) := by
  refine ⟨_, Json.parse_render _ ?_, ?_, by simp [Member, JMembers.toList], (Json.isInt64_iff _).1 hint,
    Or.inl ⟨_, by simp [Member, JMembers.toList], Or.inl rfl⟩, ?_, ?_⟩
  · have : Json.JOkM (nugetFrameworks l) := by
      clear hl hd
      induction l with
      | nil => simp [nugetFrameworks, Json.JOkM]
      | cons x l ih => simp [nugetFrameworks, Json.JOkM, Json.JOk, ih, Json.texts_ok]
    simp only [Json.JOk, Json.JOkM] at hv ⊢
    exact ⟨hv, this, trivial⟩
  · unfold PlainKeys DistinctKeys; simp [JMembers.toList]; decide
  · unfold DistinctKeys; rw [nugetFrameworks_toList, List.map_map]; exact hl
  · intro k v hv
    unfold Member at hv
    rw [nugetFrameworks_toList] at hv
    obtain ⟨x, hx, e⟩ := List.mem_map.1 hv
    injection e with e1 e2
    subst e2
    exact ⟨_, Or.inl rfl, Json.texts_typed _ _ (hd x hx)⟩

theorem nugetEntry_render (l : List (Str × List (Str × Str))) (p : PackageDetails) :
    NuGetEntry (nugetFrameworks l) p ↔ ∃ x ∈ l, ∃ y ∈ x.2, p = pkg g!"NuGet" y.1 y.2 [] := by
  unfold NuGetEntry Member
  rw [nugetFrameworks_toList]
  constructor
  · rintro ⟨fw, v, deps, n, r, hv, ho, ht, e⟩
    obtain ⟨x, hx, e'⟩ := List.mem_map.1 hv
    injection e' with e1 e2
    subst e2
    rcases ho with ho | ⟨ho, _⟩
    · injection ho with ho
      subst ho
      exact ⟨x, hx, (n, r), (Json.texts_text _ _ _ _).1 ht, e⟩
    · cases ho
  · rintro ⟨x, hx, y, hy, e⟩
    exact ⟨x.1, _, _, y.1, y.2, List.mem_map.2 ⟨x, hx, rfl⟩, Or.inl rfl, (Json.texts_text _ _ _ _).2 hy, e⟩

theorem C64_counterexample : ¬ C64_full := by
  intro h
  obtain ⟨pkgs, h1, _, h2⟩ := h id id id (fun _ => List.Perm.refl _) (fun _ => List.Perm.refl _) (fun _ => List.Perm.refl _) _ _
    (nugetFile_render g!"1" (by simp only [Json.JOk, Json.numOk]; decide +kernel) (by decide) [(g!"net6.0", [(g!"a@1", g!"2"), (g!"a", g!"1@2")])] (by decide) (by decide))
  have h3 := (h2 (pkg g!"NuGet" g!"a@1" g!"2" [])).2 ((nugetEntry_render _ _).2 ⟨_, List.mem_singleton.2 rfl, (g!"a@1", g!"2"), by simp, rfl⟩)
  have : parseNuGetLock id id id (some (nugetText g!"1" [(g!"net6.0", [(g!"a@1", g!"2"), (g!"a", g!"1@2")])])) =
      some ([pkg g!"NuGet" g!"a" g!"1@2" []], false) := by decide +kernel
  rw [this] at h1
  injection h1 with h1
  injection h1 with h1
  subst h1
  revert h3
  decide

/-- The hypotheses of `C64_partial` can be met, with one package in two frameworks. -/
example : NuGetFile (nugetText g!"1" [(g!"net6.0", [(g!"a", g!"2")]), (g!"net7.0", [(g!"a", g!"2"), (g!"b", [])])]) g!"1"
      (nugetFrameworks [(g!"net6.0", [(g!"a", g!"2")]), (g!"net7.0", [(g!"a", g!"2"), (g!"b", [])])]) ∧
    ∀ p, NuGetEntry (nugetFrameworks [(g!"net6.0", [(g!"a", g!"2")]), (g!"net7.0", [(g!"a", g!"2"), (g!"b", [])])]) p → '@' ∉ p.name := by
  refine ⟨nugetFile_render _ (by simp only [Json.JOk, Json.numOk]; decide +kernel) (by decide) _ (by decide) (by decide), fun p hp => ?_⟩
  obtain ⟨x, hx, y, hy, rfl⟩ := (nugetEntry_render _ _).1 hp
  simp at hx
  rcases hx with rfl | rfl <;> simp at hy <;> (try rcases hy with rfl | rfl) <;> (try subst hy) <;> decide

/-- A file of version 2, for `C64_version`. -/
example : NuGetFile (nugetText g!"2" [(g!"net6.0", [(g!"a", g!"2")])]) g!"2" (nugetFrameworks [(g!"net6.0", [(g!"a", g!"2")])]) ∧ g!"2" ≠ g!"1" :=
  ⟨nugetFile_render _ (by simp only [Json.JOk, Json.numOk]; decide +kernel) (by decide) _ (by decide) (by decide), by decide⟩

end Osv
