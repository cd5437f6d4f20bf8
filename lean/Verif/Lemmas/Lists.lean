import Verif.Spec.Lists
import Verif.Model.LockComposer
import Verif.Model.LockRenv
import Verif.Lemmas.JsonTyped
import Verif.Lemmas.NpmJson
import Verif.Lemmas.Bun
/-! # Entries of the one-to-one lockfiles -/
namespace Osv
open Str Spec

namespace Json

theorem decStruct_obj {σ : Type} {fields : List Str} {step : Str → JVal → σ → Option σ} {v : JVal} {o : JMembers}
    (h : ObjectOf v o) (old : σ) : decStruct fields step v old = decMembers fields step o.toList old := by
  rcases h with rfl | ⟨rfl, rfl⟩
  · rfl
  · rfl

theorem decSlice_arr {α : Type} {dec : JVal → Option α} {v : JVal} {l : List JVal} (h : ArrayOf v l) :
    decSlice dec v = decElems dec l := by
  rcases h with ⟨a, rfl, rfl⟩ | ⟨rfl, rfl⟩
  · rfl
  · rfl

theorem decMap_obj {α : Type} {dec : JVal → Option α} {v : JVal} {o : JMembers} (h : ObjectOf v o) :
    (decMap dec v none).map (·.getD []) = decEntries dec o.toList [] := by
  rcases h with rfl | ⟨rfl, rfl⟩
  · simp only [decMap, Option.getD_none, Option.map_map]
    cases decEntries dec o.toList [] <;> rfl
  · rfl

theorem objectOf_unique {v : JVal} {o o' : JMembers} (h : ObjectOf v o) (h' : ObjectOf v o') : o = o' := by
  rcases h with rfl | ⟨rfl, rfl⟩ <;> rcases h' with h' | ⟨h', rfl⟩
  · injection h'
  · cases h'
  · cases h'
  · rfl

theorem objectField_unique {m o o' : JMembers} {f : Str} (hd : DistinctKeys m) (h : ObjectField m f o)
    (h' : ObjectField m f o') : o = o' := by
  rcases h with ⟨v, hv, h⟩ | ⟨hn, rfl⟩ <;> rcases h' with ⟨w, hw, h'⟩ | ⟨hn', rfl⟩
  · rw [key_unique hd hv hw] at h; exact objectOf_unique h h'
  · exact absurd hv (hn' _)
  · exact absurd hw (hn _)
  · rfl

theorem arrayOf_unique {v : JVal} {l l' : List JVal} (h : ArrayOf v l) (h' : ArrayOf v l') : l = l' := by
  rcases h with ⟨a, rfl, rfl⟩ | ⟨rfl, rfl⟩ <;> rcases h' with ⟨b, h', rfl⟩ | ⟨h', rfl⟩
  · injection h' with h'; rw [h']
  · cases h'
  · cases h'
  · rfl

/-- A slice in a field. -/
theorem decMembers_slice {σ α : Type} {fields : List Str} {step : Str → JVal → σ → Option σ} (f : Str) (get : σ → List α)
    (dec : JVal → Option α) (hf : f ∈ fields)
    (hstep : ∀ v s s', step f v s = some s' → decSlice dec v = some (get s'))
    (hother : ∀ g ∈ fields, g ≠ f → ∀ v s s', step g v s = some s' → get s' = get s)
    (m : JMembers) (hp : PlainKeys fields m) (l : List JVal) (hl : ArrayField m f l) (s s' : σ) (h0 : get s = [])
    (h : decMembers fields step m.toList s = some s') : decElems dec l = some (get s') := by
  rcases decMembers_field f get (fun v _ => decSlice dec v) hf hstep hother m.toList hp.1 hp.2 s s' h with ⟨v, hv, e⟩ | ⟨hv, e⟩
  · rcases hl with ⟨w, hw, hl⟩ | ⟨hn, _⟩
    · rw [key_unique hp.1 hv hw] at e
      rw [← decSlice_arr hl]; exact e
    · exact absurd hv (hn v)
  · rcases hl with ⟨w, hw, hl⟩ | ⟨hn, rfl⟩
    · exact absurd hw (hv w)
    · rw [e, h0]; rfl

end Json

namespace Composer

theorem step_field {g : Str} {v : JVal} {s s' : ComposerPackage} (h : composerPackageStep g v s = some s') :
    (g = g!"name" → Json.decStr v s.name = some s'.name) ∧ (g ≠ g!"name" → s'.name = s.name) ∧
    (g = g!"version" → Json.decStr v s.version = some s'.version) ∧ (g ≠ g!"version" → s'.version = s.version) ∧
    (g = g!"dist" → Json.decStruct [g!"reference"] (fun _ w old => Json.decStr w old) v s.reference = some s'.reference) ∧
    (g ∈ [g!"name", g!"version", g!"dist"] → g ≠ g!"dist" → s'.reference = s.reference) := by
  unfold composerPackageStep at h
  by_cases h1 : g = g!"name"
  · rw [if_pos h1] at h
    obtain ⟨x, hx, rfl⟩ := Option.map_eq_some_iff.1 h
    subst h1
    exact ⟨fun _ => hx, fun h => absurd rfl h, fun h => by simp at h, fun _ => rfl, fun h => by simp at h, fun _ _ => rfl⟩
  · rw [if_neg h1] at h
    by_cases h2 : g = g!"version"
    · rw [if_pos h2] at h
      obtain ⟨x, hx, rfl⟩ := Option.map_eq_some_iff.1 h
      subst h2
      exact ⟨fun h => by simp at h, fun _ => rfl, fun _ => hx, fun h => absurd rfl h, fun h => by simp at h, fun _ _ => rfl⟩
    · rw [if_neg h2] at h
      obtain ⟨x, hx, rfl⟩ := Option.map_eq_some_iff.1 h
      exact ⟨fun h => absurd h h1, fun _ => rfl, fun h => absurd h h2, fun _ => rfl, fun _ => hx,
        fun hm hd => absurd hm (by simp [h1, h2, hd])⟩

theorem text_ok {d : JMembers} (hk : PlainKeys [g!"reference"] d) (old : Str) :
    (∃ s, Json.decMembers [g!"reference"] (fun _ w old => Json.decStr w old) d.toList old = some s) ↔
      ∀ w, Member d g!"reference" w → IsText w := by
  rw [Json.decMembers_ok (ok := fun _ v => IsText v) (fun f hf v s => Json.decStr_ok v s) d.toList hk.2 old]
  simp [Member]

theorem package_ok {x : JVal} (h : ComposerTyped x) : ∃ d, decComposerPackage x = some d := by
  obtain ⟨o, ho, hk, hn, hv, hd⟩ := h
  unfold decComposerPackage
  rw [Json.decStruct_obj ho]
  refine Json.decMembers_total o.toList hk.2 ?_ _
  intro f hf v hm s
  unfold composerPackageStep
  by_cases h1 : f = g!"name"
  · rw [if_pos h1]
    obtain ⟨t, ht⟩ := (Json.decStr_ok v s.name).2 (hn v (h1 ▸ hm))
    exact ⟨_, by rw [ht]; rfl⟩
  · rw [if_neg h1]
    by_cases h2 : f = g!"version"
    · rw [if_pos h2]
      obtain ⟨t, ht⟩ := (Json.decStr_ok v s.version).2 (hv v (h2 ▸ hm))
      exact ⟨_, by rw [ht]; rfl⟩
    · rw [if_neg h2]
      have h3 : f = g!"dist" := by simpa [h1, h2] using hf
      obtain ⟨d, hdo, hdk, hdt⟩ := hd v (h3 ▸ hm)
      rw [Json.decStruct_obj hdo]
      obtain ⟨t, ht⟩ := (text_ok hdk s.reference).2 hdt
      exact ⟨_, by rw [ht]; rfl⟩

theorem contains_dot (s : Str) : contains s g!"." = true ↔ '.' ∈ s := by
  rw [contains_iff]
  constructor
  · rintro ⟨a, b, rfl⟩; simp
  · intro h
    obtain ⟨a, b, rfl, _⟩ := List.eq_append_cons_of_mem h
    exact ⟨a, b, by simp⟩

/-- A decoded package. -/
theorem package_entry {x : JVal} (h : ComposerTyped x) {d : ComposerPackage} (hd : decComposerPackage x = some d) :
    ComposerEntry x (composerDetails d) := by
  obtain ⟨o, ho, hk, hn, hv, hdi⟩ := h
  unfold decComposerPackage at hd
  rw [Json.decStruct_obj ho] at hd
  have h1 := Json.decMembers_text g!"name" (·.name) (by simp) (fun v s s' h => (step_field h).1 rfl)
    (fun g _ hne v s s' h => (step_field h).2.1 hne) o hk _ _ rfl hd
  have h2 := Json.decMembers_text g!"version" (·.version) (by simp) (fun v s s' h => (step_field h).2.2.1 rfl)
    (fun g _ hne v s s' h => (step_field h).2.2.2.1 hne) o hk _ _ rfl hd
  have h3 : ∃ dist, ObjectField o g!"dist" dist ∧ TextField dist g!"reference" d.reference := by
    rcases Json.decMembers_field g!"dist" (·.reference)
      (fun v old => Json.decStruct [g!"reference"] (fun _ w old => Json.decStr w old) v old) (by simp)
      (fun v s s' h => (step_field h).2.2.2.2.1 rfl) (fun g hg hne v s s' h => (step_field h).2.2.2.2.2 hg hne)
      o.toList hk.1 hk.2 _ _ hd with ⟨v, hv, e⟩ | ⟨hno, e⟩
    · obtain ⟨dist, hdo, hdk, _⟩ := hdi v hv
      refine ⟨dist, Or.inl ⟨v, hv, hdo⟩, ?_⟩
      dsimp only at e
      rw [Json.decStruct_obj hdo] at e
      exact Json.decMembers_text (fields := [g!"reference"]) (step := fun _ w old => Json.decStr w old) g!"reference" id
        (by simp) (fun v s s' h => h) (fun g hg hne => absurd (by simpa using hg) hne) dist hdk _ _ rfl e
    · exact ⟨.nil, Or.inr ⟨hno, rfl⟩, Or.inr ⟨e, by simp [Member, JMembers.toList]⟩⟩
  obtain ⟨dist, hf, ht⟩ := h3
  refine ⟨o, d.name, d.version, dist, d.reference, extractComposerCommit d, ho, h1, h2, hf, ht, ?_, rfl⟩
  unfold extractComposerCommit
  by_cases hc : contains d.reference g!"." = true
  · rw [if_pos hc]; exact Or.inl ⟨(contains_dot _).1 hc, rfl⟩
  · rw [if_neg hc]; exact Or.inr ⟨fun h => hc ((contains_dot _).2 h), rfl⟩

theorem entry_unique {x : JVal} (h : ComposerTyped x) {p q : PackageDetails} (hp : ComposerEntry x p) (hq : ComposerEntry x q) :
    p = q := by
  obtain ⟨o, ho, hk, hn, hv, hdi⟩ := h
  obtain ⟨o1, n1, v1, d1, r1, c1, ho1, hn1, hv1, hd1, hr1, hc1, rfl⟩ := hp
  obtain ⟨o2, n2, v2, d2, r2, c2, ho2, hn2, hv2, hd2, hr2, hc2, rfl⟩ := hq
  obtain rfl := Json.objectOf_unique ho ho1
  obtain rfl := Json.objectOf_unique ho ho2
  obtain rfl := Npm.textField_unique hk.1 hn1 hn2
  obtain rfl := Npm.textField_unique hk.1 hv1 hv2
  obtain rfl := Json.objectField_unique hk.1 hd1 hd2
  have hdd : DistinctKeys d1 := by
    rcases hd1 with ⟨v, hv, hdo⟩ | ⟨_, rfl⟩
    · obtain ⟨d, hdo', hdk, _⟩ := hdi v hv
      obtain rfl := Json.objectOf_unique hdo hdo'
      exact hdk.1
    · simp [DistinctKeys, JMembers.toList]
  obtain rfl := Npm.textField_unique hdd hr1 hr2
  rcases hc1 with ⟨h1, rfl⟩ | ⟨h1, rfl⟩ <;> rcases hc2 with ⟨h2, rfl⟩ | ⟨h2, rfl⟩
  · rfl
  · exact absurd h1 h2
  · exact absurd h2 h1
  · rfl

theorem elems_entries (l : List JVal) (h : ∀ x ∈ l, ComposerTyped x) :
    ∃ ds, Json.decElems decComposerPackage l = some ds ∧ Entries ComposerEntry l (ds.map composerDetails) := by
  induction l with
  | nil => exact ⟨[], rfl, .nil⟩
  | cons x l ih =>
    obtain ⟨ds, h1, h2⟩ := ih fun x hx => h x (by simp [hx])
    obtain ⟨d, hd⟩ := package_ok (h x (by simp))
    refine ⟨d :: ds, ?_, .keep (package_entry (h x (by simp)) hd) h2⟩
    unfold Json.decElems
    rw [hd, h1]
    rfl

theorem lock_field {g : Str} {v : JVal} {s s' : ComposerLock} (h : composerStep g v s = some s')
    (hg : g ∈ [g!"packages", g!"packages-dev"]) :
    (g = g!"packages" → Json.decSlice decComposerPackage v = some s'.packages) ∧ (g ≠ g!"packages" → s'.packages = s.packages) ∧
    (g = g!"packages-dev" → Json.decSlice decComposerPackage v = some s'.packagesDev) ∧
    (g ≠ g!"packages-dev" → s'.packagesDev = s.packagesDev) := by
  unfold composerStep at h
  by_cases h1 : g = g!"packages"
  · rw [if_pos h1] at h
    obtain ⟨x, hx, rfl⟩ := Option.map_eq_some_iff.1 h
    subst h1
    exact ⟨fun _ => hx, fun h => absurd rfl h, fun h => by simp at h, fun _ => rfl⟩
  · rw [if_neg h1] at h
    obtain ⟨x, hx, rfl⟩ := Option.map_eq_some_iff.1 h
    have : g = g!"packages-dev" := by simpa [h1] using hg
    subst this
    exact ⟨fun h => absurd h h1, fun _ => rfl, fun _ => hx, fun h => absurd rfl h⟩

/-- How a file is decoded. -/
theorem decoded {content : Str} {packages dev : List JVal} (h : ComposerFile content packages dev) :
    ∃ l, (Json.parse content).bind decComposerLock = some (some l) ∧
      Entries ComposerEntry packages (l.packages.map composerDetails) ∧ Entries ComposerEntry dev (l.packagesDev.map composerDetails) := by
  obtain ⟨doc, hj, hk, hp, hdv, ht⟩ := h
  obtain ⟨ds, h1, e1⟩ := elems_entries packages fun x hx => ht x (by simp [hx])
  obtain ⟨dv, h2, e2⟩ := elems_entries dev fun x hx => ht x (by simp [hx])
  have harr : ∀ {f : Str} {l : List JVal} {r : List ComposerPackage}, ArrayField doc f l → Json.decElems decComposerPackage l = some r →
      ∀ v, Member doc f v → Json.decSlice decComposerPackage v = some r := by
    intro f l r hl hr v hv
    rcases hl with ⟨w, hw, hl⟩ | ⟨hn, _⟩
    · rw [Json.key_unique hk.1 hv hw, Json.decSlice_arr hl]; exact hr
    · exact absurd hv (hn v)
  obtain ⟨l, hl⟩ := Json.decMembers_total (fields := [g!"packages", g!"packages-dev"]) (step := composerStep) doc.toList hk.2 (by
    intro f hf v hv s
    unfold composerStep
    by_cases h : f = g!"packages"
    · rw [if_pos h, harr hp h1 v (h ▸ hv)]; exact ⟨_, rfl⟩
    · have h' : f = g!"packages-dev" := by simpa [h] using hf
      rw [if_neg h, harr hdv h2 v (h' ▸ hv)]; exact ⟨_, rfl⟩) {}
  refine ⟨l, ?_, ?_, ?_⟩
  · rw [hj]
    simp only [Option.bind_some, decComposerLock, Json.decStruct]
    rw [hl]
    rfl
  · have := Json.decMembers_slice g!"packages" (·.packages) decComposerPackage (by simp)
      (fun v s s' h => (lock_field h (by simp)).1 rfl) (fun g hg hne v s s' h => (lock_field h hg).2.1 hne) doc hk packages hp _ _ rfl hl
    rw [h1] at this
    injection this with this
    rw [← this]; exact e1
  · have := Json.decMembers_slice g!"packages-dev" (·.packagesDev) decComposerPackage (by simp)
      (fun v s s' h => (lock_field h (by simp)).2.2.1 rfl) (fun g hg hne v s s' h => (lock_field h hg).2.2.2 hne) doc hk dev hdv _ _ rfl hl
    rw [h2] at this
    injection this with this
    rw [← this]; exact e2

end Composer

namespace Renv

theorem step_field {g : Str} {v : JVal} {s s' : RenvPackage} (h : renvPackageStep g v s = some s') :
    (g = g!"Package" → Json.decStr v s.package = some s'.package) ∧ (g ≠ g!"Package" → s'.package = s.package) ∧
    (g = g!"Version" → Json.decStr v s.version = some s'.version) ∧ (g ≠ g!"Version" → s'.version = s.version) ∧
    (g = g!"Repository" → Json.decStr v s.repository = some s'.repository) ∧
    (g ∈ [g!"Package", g!"Version", g!"Repository"] → g ≠ g!"Repository" → s'.repository = s.repository) := by
  unfold renvPackageStep at h
  by_cases h1 : g = g!"Package"
  · rw [if_pos h1] at h
    obtain ⟨x, hx, rfl⟩ := Option.map_eq_some_iff.1 h
    subst h1
    exact ⟨fun _ => hx, fun h => absurd rfl h, fun h => by simp at h, fun _ => rfl, fun h => by simp at h, fun _ _ => rfl⟩
  · rw [if_neg h1] at h
    by_cases h2 : g = g!"Version"
    · rw [if_pos h2] at h
      obtain ⟨x, hx, rfl⟩ := Option.map_eq_some_iff.1 h
      subst h2
      exact ⟨fun h => by simp at h, fun _ => rfl, fun _ => hx, fun h => absurd rfl h, fun h => by simp at h, fun _ _ => rfl⟩
    · rw [if_neg h2] at h
      obtain ⟨x, hx, rfl⟩ := Option.map_eq_some_iff.1 h
      exact ⟨fun h => absurd h h1, fun _ => rfl, fun h => absurd h h2, fun _ => rfl, fun _ => hx,
        fun hm hd => absurd hm (by simp [h1, h2, hd])⟩

theorem package_ok {x : JVal} (h : RenvTyped x) : ∃ d, decRenvPackage x = some d := by
  obtain ⟨o, ho, hk, ht⟩ := h
  unfold decRenvPackage
  rw [Json.decStruct_obj ho]
  refine Json.decMembers_total o.toList hk.2 ?_ _
  intro f hf v hm s
  have htv := ht f hf v hm
  unfold renvPackageStep
  by_cases h1 : f = g!"Package"
  · rw [if_pos h1]
    obtain ⟨t, ht⟩ := (Json.decStr_ok v s.package).2 htv
    exact ⟨_, by rw [ht]; rfl⟩
  · rw [if_neg h1]
    by_cases h2 : f = g!"Version"
    · rw [if_pos h2]
      obtain ⟨t, ht⟩ := (Json.decStr_ok v s.version).2 htv
      exact ⟨_, by rw [ht]; rfl⟩
    · rw [if_neg h2]
      obtain ⟨t, ht⟩ := (Json.decStr_ok v s.repository).2 htv
      exact ⟨_, by rw [ht]; rfl⟩

/-- The fields of a decoded package. -/
theorem package_fields {x : JVal} (h : RenvTyped x) {d : RenvPackage} (hd : decRenvPackage x = some d) :
    ∃ o, ObjectOf x o ∧ TextField o g!"Package" d.package ∧ TextField o g!"Version" d.version ∧
      TextField o g!"Repository" d.repository := by
  obtain ⟨o, ho, hk, ht⟩ := h
  unfold decRenvPackage at hd
  rw [Json.decStruct_obj ho] at hd
  exact ⟨o, ho, Json.decMembers_text g!"Package" (·.package) (by simp) (fun v s s' h => (step_field h).1 rfl)
      (fun g _ hne v s s' h => (step_field h).2.1 hne) o hk _ _ rfl hd,
    Json.decMembers_text g!"Version" (·.version) (by simp) (fun v s s' h => (step_field h).2.2.1 rfl)
      (fun g _ hne v s s' h => (step_field h).2.2.2.1 hne) o hk _ _ rfl hd,
    Json.decMembers_text g!"Repository" (·.repository) (by simp) (fun v s s' h => (step_field h).2.2.2.2.1 rfl)
      (fun g hg hne v s s' h => (step_field h).2.2.2.2.2 hg hne) o hk _ _ rfl hd⟩

theorem entry_fields {x : Str × JVal} (h : RenvTyped x.2) {d : RenvPackage} (hd : decRenvPackage x.2 = some d) (p : PackageDetails) :
    RenvEntry x p ↔ (d.repository = [] ∨ d.repository = g!"CRAN") ∧ p = pkg g!"CRAN" d.package d.version [] := by
  obtain ⟨o, ho, h1, h2, h3⟩ := package_fields h hd
  have hdk : DistinctKeys o := by
    obtain ⟨o', ho', hk, _⟩ := h
    obtain rfl := Json.objectOf_unique ho ho'
    exact hk.1
  constructor
  · rintro ⟨o', n, v, r, ho', hn, hv, hr, hc, rfl⟩
    obtain rfl := Json.objectOf_unique ho ho'
    obtain rfl := Npm.textField_unique hdk h1 hn
    obtain rfl := Npm.textField_unique hdk h2 hv
    obtain rfl := Npm.textField_unique hdk h3 hr
    exact ⟨hc, rfl⟩
  · rintro ⟨hc, rfl⟩
    exact ⟨o, _, _, _, ho, h1, h2, h3, hc, rfl⟩

theorem loop_entries (items : List (Str × JVal)) (xs : SMap RenvPackage) (ht : ∀ x ∈ items, RenvTyped x.2)
    (h : items.map (fun x => (x.1, decRenvPackage x.2)) = xs.map (fun x => (x.1, some x.2))) :
    Entries RenvEntry items (renvLoop xs) := by
  induction items generalizing xs with
  | nil =>
    cases xs with
    | nil => exact .nil
    | cons x xs => cases h
  | cons y items ih =>
    cases xs with
    | nil => cases h
    | cons x xs =>
      obtain ⟨k, v⟩ := y
      obtain ⟨k', d⟩ := x
      simp only [List.map_cons, List.cons.injEq, Prod.mk.injEq] at h
      have ih' := ih xs (fun x hx => ht x (by simp [hx])) h.2
      have hf := entry_fields (x := (k, v)) (ht _ (by simp)) h.1.2
      unfold renvLoop
      by_cases hc : d.repository = [] ∨ d.repository = g!"CRAN"
      · rw [if_neg (by simp only [cranEcosystem]; rcases hc with hc | hc <;> simp [hc])]
        exact .keep ((hf _).2 ⟨hc, rfl⟩) ih'
      · rw [if_pos (by
          simp only [cranEcosystem, Bool.and_eq_true, decide_eq_true_eq]
          exact ⟨fun h => hc (Or.inl h), decide_eq_true fun h => hc (Or.inr h)⟩)]
        exact .skip (fun p hp => hc ((hf p).1 hp).1) ih'

/-- How a file is decoded. -/
theorem decoded {content : Str} {packages : JMembers} (h : RenvFile content packages) :
    ∃ l : Option (SMap RenvPackage), (Json.parse content).bind decRenvLockfile = some (some l) ∧
      packages.toList.map (fun x => (x.1, decRenvPackage x.2)) = (l.getD []).map (fun x => (x.1, some x.2)) := by
  obtain ⟨doc, hj, hk, hp, hd, ht⟩ := h
  obtain ⟨m, hm⟩ := (Json.decEntries_ok decRenvPackage packages.toList []).2 fun x hx => package_ok (ht x.1 x.2 hx)
  obtain ⟨xs, e, hxs⟩ := Json.decEntries_list _ _ _ _ hm hd (by simp)
  rw [List.nil_append] at e
  subst e
  have hmap : ∀ v, Member doc g!"Packages" v → ∃ l, Json.decMap decRenvPackage v none = some l ∧ l.getD [] = m := by
    intro v hv
    rcases hp with ⟨w, hw, ho⟩ | ⟨hn, _⟩
    · rw [Json.key_unique hk.1 hv hw]
      have := Json.decMap_obj (dec := decRenvPackage) ho
      rw [hm] at this
      exact Option.map_eq_some_iff.1 this
    · exact absurd hv (hn v)
  have hmap' : ∀ v, Member doc g!"Packages" v → ∀ old, ∃ l, Json.decMap decRenvPackage v old = some l := by
    intro v hv old
    obtain ⟨l, hl, _⟩ := hmap v hv
    cases v with
    | obj o =>
      simp only [Json.decMap] at hl ⊢
      obtain ⟨a, ha, _⟩ := Option.map_eq_some_iff.1 hl
      obtain ⟨b, hb⟩ := (Json.decEntries_ok decRenvPackage o.toList (old.getD [])).2
        ((Json.decEntries_ok decRenvPackage o.toList _).1 ⟨a, ha⟩)
      exact ⟨_, by rw [hb]; rfl⟩
    | null => exact ⟨_, rfl⟩
    | _ => simp [Json.decMap] at hl
  obtain ⟨l, hl⟩ := Json.decMembers_total (fields := [g!"Packages"]) (step := fun _ w old => Json.decMap decRenvPackage w old)
    doc.toList hk.2 (by
      intro f hf v hv s
      have : f = g!"Packages" := by simpa using hf
      exact hmap' v (this ▸ hv) s) none
  refine ⟨l, ?_, ?_⟩
  · rw [hj]
    simp only [Option.bind_some, decRenvLockfile, Json.decStruct]
    rw [hl]
    rfl
  · rcases Json.decMembers_field (fields := [g!"Packages"]) (step := fun _ w old => Json.decMap decRenvPackage w old) g!"Packages" id
      (Json.decMap decRenvPackage) (by simp) (fun v s s' h => h) (fun g hg hne => absurd (by simpa using hg) hne)
      doc.toList hk.1 hk.2 _ _ hl with ⟨v, hv, e⟩ | ⟨hno, e⟩
    · obtain ⟨l', hl', e'⟩ := hmap v hv
      simp only [id_eq] at e
      rw [hl'] at e
      injection e with e
      rw [← e, e']
      exact hxs
    · rcases hp with ⟨w, hw, _⟩ | ⟨_, rfl⟩
      · exact absurd hw (hno w)
      · simp only [id_eq] at e
        rw [e]
        rfl

end Renv
end Osv
