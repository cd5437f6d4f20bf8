import Verif.Spec.NuGet
import Verif.Lemmas.Lists
/-! # Maps of objects with one text -/
namespace Osv
open Str Spec

namespace DetailMap

/-- The packages of a map whose keys are determined by the packages, and determine them. -/
theorem Adds.exact {m : SMap PackageDetails} {P : Str × PackageDetails → Prop} (h : Adds [] m P)
    (hc : ∀ x y, P x → P y → x.1 = y.1 → x.2 = y.2) (hk : ∀ x y, P x → P y → x.2 = y.2 → x.1 = y.1)
    {pkgs : List PackageDetails} (hp : pkgs.Perm (m.map (·.2))) :
    pkgs.Nodup ∧ ∀ p, p ∈ pkgs ↔ ∃ k, P (k, p) := by
  constructor
  · rw [hp.nodup_iff]
    have hn : (m.map (·.1)).Nodup := h.2.2 (by simp)
    have hP : ∀ x ∈ m, P x := fun x hx => (h.mem hc x).1 hx
    clear h hp hc
    induction m with
    | nil => simp
    | cons x m ih =>
      simp only [List.map_cons, List.nodup_cons] at hn ⊢
      refine ⟨?_, ih hn.2 fun y hy => hP y (by simp [hy])⟩
      intro hm
      obtain ⟨y, hy, e⟩ := List.mem_map.1 hm
      exact hn.1 (List.mem_map.2 ⟨y, hy, hk y x (hP y (by simp [hy])) (hP x (by simp)) e⟩)
  · intro p
    rw [hp.mem_iff, List.mem_map]
    constructor
    · rintro ⟨⟨k, q⟩, hx, rfl⟩; exact ⟨k, (h.mem hc _).1 hx⟩
    · rintro ⟨k, hx⟩; exact ⟨(k, p), (h.mem hc _).2 hx, rfl⟩

end DetailMap

namespace Json

/-- Decoding of an object with one text. -/
def decText (f : Str) (v : JVal) : Option Str := decStruct [f] (fun _ w old => decStr w old) v []

theorem decText_ok {f : Str} {v : JVal} {o : JMembers} (ho : ObjectOf v o) (hk : PlainKeys [f] o)
    (ht : ∀ w, Member o f w → IsText w) : ∃ s, decText f v = some s ∧ TextField o f s := by
  unfold decText
  rw [decStruct_obj ho]
  obtain ⟨s, hs⟩ := decMembers_total (fields := [f]) (step := fun _ w old => decStr w old) o.toList hk.2
    (fun g hg w hw s => (decStr_ok w s).2 (ht w (by
      have : g = f := by simpa using hg
      exact this ▸ hw))) []
  exact ⟨s, hs, decMembers_text (fields := [f]) (step := fun _ w old => decStr w old) f id (by simp) (fun v s s' h => h)
    (fun g hg hne => absurd (by simpa using hg) hne) o hk _ _ rfl hs⟩

/-- A map of such objects. -/
theorem decTexts {f : Str} {m : JMembers} (h : TextsTyped m f) :
    ∃ r, decEntries (decText f) m.toList [] = some r ∧ ∀ name text, TextOf m name f text ↔ (name, text) ∈ r := by
  obtain ⟨hd, ht⟩ := h
  obtain ⟨r, hr⟩ := (decEntries_ok (decText f) m.toList []).2 fun x hx => by
    obtain ⟨o, ho, hk, hw⟩ := ht x.1 x.2 hx
    obtain ⟨s, hs, _⟩ := decText_ok ho hk hw
    exact ⟨s, hs⟩
  refine ⟨r, hr, fun name text => ?_⟩
  rw [decEntries_mem _ _ _ _ hr hd (by simp)]
  constructor
  · rintro ⟨v, o, hm, ho, htx⟩
    refine Or.inr ⟨v, hm, ?_⟩
    obtain ⟨o', ho', hk, hw⟩ := ht name v hm
    obtain rfl := objectOf_unique ho ho'
    obtain ⟨s, hs, hst⟩ := decText_ok ho hk hw
    rw [hs, Npm.textField_unique hk.1 htx hst]
  · rintro (h | ⟨v, hm, e⟩)
    · cases h
    · obtain ⟨o, ho, hk, hw⟩ := ht name v hm
      obtain ⟨s, hs, hst⟩ := decText_ok ho hk hw
      dsimp only at e
      rw [hs] at e
      injection e with e
      subst e
      exact ⟨v, o, hm, ho, hst⟩

/-- A map decoded into any older map. -/
theorem decMap_total {α : Type} {dec : JVal → Option α} {v : JVal} {o : JMembers} (h : ObjectOf v o)
    (hd : ∀ x ∈ o.toList, ∃ a, dec x.2 = some a) (old : Option (SMap α)) : ∃ r, decMap dec v old = some r := by
  rcases h with rfl | ⟨rfl, rfl⟩
  · obtain ⟨m, hm⟩ := (decEntries_ok dec o.toList (old.getD [])).2 hd
    exact ⟨some m, by simp only [decMap]; rw [hm]; rfl⟩
  · exact ⟨none, rfl⟩

/-- A map in a field. -/
theorem decMembers_map {σ α : Type} {fields : List Str} {step : Str → JVal → σ → Option σ} (f : Str) (get : σ → Option (SMap α))
    (dec : JVal → Option α) (hf : f ∈ fields)
    (hstep : ∀ v s s', step f v s = some s' → decMap dec v (get s) = some (get s'))
    (hother : ∀ g ∈ fields, g ≠ f → ∀ v s s', step g v s = some s' → get s' = get s)
    (m : JMembers) (hp : PlainKeys fields m) (o : JMembers) (ho : ObjectField m f o) (s s' : σ) (h0 : get s = none)
    (h : decMembers fields step m.toList s = some s') : decEntries dec o.toList [] = some ((get s').getD []) := by
  rcases decMembers_field f get (decMap dec) hf hstep hother m.toList hp.1 hp.2 s s' h with ⟨v, hv, e⟩ | ⟨hv, e⟩
  · rcases ho with ⟨w, hw, ho⟩ | ⟨hn, _⟩
    · rw [key_unique hp.1 hv hw, h0] at e
      rw [← decMap_obj ho, e]; rfl
    · exact absurd hv (hn v)
  · rcases ho with ⟨w, hw, ho⟩ | ⟨hn, rfl⟩
    · exact absurd hw (hv w)
    · rw [e, h0]; rfl

end Json

namespace NuGet

theorem step_field {g : Str} {v : JVal} {s s' : NuGetLockfile} (h : nugetStep g v s = some s')
    (hg : g ∈ [g!"version", g!"dependencies"]) :
    (g = g!"version" → ∀ lit, v = .num lit → s'.version = lit) ∧ (g ≠ g!"version" → s'.version = s.version) ∧
    (g = g!"dependencies" →
      Json.decMap (fun w => Json.decMap decNuGetPackage w none) v s.dependencies = some s'.dependencies) ∧
    (g ≠ g!"dependencies" → s'.dependencies = s.dependencies) := by
  unfold nugetStep at h
  by_cases h1 : g = g!"version"
  · rw [if_pos h1] at h
    obtain ⟨x, hx, rfl⟩ := Option.map_eq_some_iff.1 h
    subst h1
    refine ⟨fun _ lit e => by subst e; rfl, fun h => absurd rfl h, fun h => by simp at h, fun _ => ?_⟩
    cases v <;> rfl
  · rw [if_neg h1] at h
    obtain ⟨x, hx, rfl⟩ := Option.map_eq_some_iff.1 h
    have : g = g!"dependencies" := by simpa [h1] using hg
    exact ⟨fun h => absurd h h1, fun _ => rfl, fun _ => hx, fun h => absurd this h⟩

theorem framework_ok {v : JVal} {deps : JMembers} (h : ObjectOf v deps) (ht : TextsTyped deps g!"resolved") :
    ∃ r, Json.decMap decNuGetPackage v none = some r ∧ ∀ name text, TextOf deps name g!"resolved" text ↔ (name, text) ∈ r.getD [] := by
  obtain ⟨r, hr, hm⟩ := Json.decTexts ht
  have := Json.decMap_obj (dec := decNuGetPackage) h
  have e : Json.decEntries decNuGetPackage deps.toList [] = some r := hr
  rw [e] at this
  obtain ⟨r', h1, rfl⟩ := Option.map_eq_some_iff.1 this
  exact ⟨r', h1, hm⟩

/-- How a file is decoded. -/
theorem decoded {content version : Str} {frameworks : JMembers} (h : NuGetFile content version frameworks) :
    ∃ l, (Json.parse content).bind decNuGetLockfile = some (some l) ∧ l.version = version ∧
      ∀ name text, (∃ fw v deps, Member frameworks fw v ∧ ObjectOf v deps ∧ TextOf deps name g!"resolved" text) ↔
        ∃ x ∈ l.dependencies.getD [], (name, text) ∈ x.2.getD [] := by
  obtain ⟨doc, hj, hk, hv, hint, ho, hd, ht⟩ := h
  have hframes : ∀ x ∈ frameworks.toList, ∃ a, Json.decMap decNuGetPackage x.2 none = some a := by
    intro x hx
    obtain ⟨deps, hdo, htt⟩ := ht x.1 x.2 hx
    obtain ⟨r, hr, _⟩ := framework_ok hdo htt
    exact ⟨r, hr⟩
  obtain ⟨l, hl⟩ := Json.decMembers_total (fields := [g!"version", g!"dependencies"]) (step := nugetStep) doc.toList hk.2 (by
    intro f hf v hm s
    unfold nugetStep
    by_cases h : f = g!"version"
    · have e : v = .num version := Json.key_unique hk.1 (k := g!"version") (by rw [← h]; exact hm) hv
      rw [if_pos h, e]
      simp [Json.decInt, (Json.isInt64_iff _).2 hint]
    · have h' : f = g!"dependencies" := by simpa [h] using hf
      rw [if_neg h]
      rcases ho with ⟨w, hw, ho⟩ | ⟨hn, _⟩
      · have e : v = w := Json.key_unique hk.1 (k := g!"dependencies") (by rw [← h']; exact hm) hw
        rw [e]
        obtain ⟨r, hr⟩ := Json.decMap_total (dec := fun w => Json.decMap decNuGetPackage w none) ho hframes s.dependencies
        exact ⟨_, by rw [hr]; rfl⟩
      · exact absurd (h' ▸ hm) (hn v)) {}
  refine ⟨l, ?_, ?_, ?_⟩
  · rw [hj]
    simp only [Option.bind_some, decNuGetLockfile, Json.decStruct]
    rw [hl]
    rfl
  · rcases Json.decMembers_field g!"version" (·.version) (fun v old => some (match v with | .num lit => lit | _ => old)) (by simp)
      (by
        intro v s s' h
        unfold nugetStep at h
        rw [if_pos rfl] at h
        obtain ⟨x, hx, rfl⟩ := Option.map_eq_some_iff.1 h
        cases v <;> rfl) (fun g hg hne v s s' h => (step_field h hg).2.1 hne) doc.toList hk.1 hk.2 _ _ hl with ⟨w, hw, e⟩ | ⟨hno, _⟩
    · rw [Json.key_unique hk.1 hw hv] at e
      injection e with e
      exact e.symm
    · exact absurd hv (hno _)
  · have hdeps := Json.decMembers_map g!"dependencies" (·.dependencies) (fun w => Json.decMap decNuGetPackage w none) (by simp)
      (fun v s s' h => (step_field h (by simp)).2.2.1 rfl) (fun g hg hne v s s' h => (step_field h hg).2.2.2 hne) doc hk frameworks ho
      _ _ rfl hl
    intro name text
    have hmem := Json.decEntries_mem _ _ _ _ hdeps hd (by simp)
    constructor
    · rintro ⟨fw, v, deps, hm, hdo, htx⟩
      obtain ⟨deps', hdo', htt⟩ := ht fw v hm
      obtain rfl := Json.objectOf_unique hdo hdo'
      obtain ⟨r, hr, hrm⟩ := framework_ok hdo htt
      exact ⟨(fw, r), (hmem _).2 (Or.inr ⟨v, hm, hr⟩), (hrm _ _).1 htx⟩
    · rintro ⟨⟨fw, r⟩, hx, htx⟩
      rcases (hmem _).1 hx with h | ⟨v, hm, hr⟩
      · cases h
      · obtain ⟨deps, hdo, htt⟩ := ht fw v hm
        obtain ⟨r', hr', hrm⟩ := framework_ok hdo htt
        dsimp only at hr
        rw [hr'] at hr
        injection hr with hr
        subst hr
        exact ⟨fw, v, deps, hm, hdo, (hrm _ _).2 htx⟩

/-- The key and package of a dependency. -/
def keyed (x : Str × Str) : Str × PackageDetails := (x.1 ++ g!"@" ++ x.2, ⟨x.1, x.2, [], nugetEcosystem, nugetEcosystem⟩)

theorem deps_adds (details : SMap PackageDetails) (l : SMap Str) :
    DetailMap.Adds details (nugetDepsLoop details l) (fun x => ∃ y ∈ l, x = keyed y) := by
  induction l generalizing details with
  | nil => exact (DetailMap.Adds.refl _).congr (by simp)
  | cons y l ih =>
    obtain ⟨n, r⟩ := y
    unfold nugetDepsLoop
    exact ((DetailMap.Adds.set details (keyed (n, r))).trans (ih _)).congr (by simp)

theorem loop_adds (iterDeps : SMap Str → SMap Str) (hi : ∀ l, (iterDeps l).Perm l) (details : SMap PackageDetails)
    (l : SMap (Option (SMap Str))) :
    DetailMap.Adds details (nugetLoop iterDeps details l) (fun x => ∃ f ∈ l, ∃ y ∈ f.2.getD [], x = keyed y) := by
  induction l generalizing details with
  | nil => exact (DetailMap.Adds.refl _).congr (by simp)
  | cons f l ih =>
    obtain ⟨k, deps⟩ := f
    unfold nugetLoop mergeDetails
    have hin := deps_adds [] (iterDeps (deps.getD []))
    have h1 : DetailMap.Adds details ((nugetDepsLoop [] (iterDeps (deps.getD []))).foldl (fun m x => m.set x.1 x.2) details)
        (fun x => ∃ y ∈ deps.getD [], x = keyed y) := by
      have hfold := DetailMap.Adds.fold details (nugetDepsLoop [] (iterDeps (deps.getD [])))
      refine ⟨fun x hx => ?_, fun k => ?_, hfold.2.2⟩
      · rcases hfold.1 x hx with h | h
        · exact Or.inl h
        · rcases hin.1 x h with h | ⟨y, hy, e⟩
          · cases h
          · exact Or.inr ⟨y, (hi _).mem_iff.1 hy, e⟩
      · rw [hfold.2.1]
        have hkeys := hin.2.1 k
        simp only [List.map_nil, List.not_mem_nil, false_or] at hkeys
        apply or_congr Iff.rfl
        constructor
        · rintro ⟨x, hx, rfl⟩
          obtain ⟨x', ⟨y, hy, rfl⟩, e⟩ := hkeys.1 (List.mem_map.2 ⟨x, hx, rfl⟩)
          exact ⟨_, ⟨y, (hi _).mem_iff.1 hy, rfl⟩, e⟩
        · rintro ⟨x, ⟨y, hy, rfl⟩, rfl⟩
          have := hkeys.2 ⟨_, ⟨y, (hi _).mem_iff.2 hy, rfl⟩, rfl⟩
          obtain ⟨z, hz, e⟩ := List.mem_map.1 this
          exact ⟨z, hz, e⟩
    exact (h1.trans (ih _)).congr (by simp)

end NuGet
end Osv
