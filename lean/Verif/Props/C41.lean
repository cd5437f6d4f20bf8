import Verif.Lemmas.PipGraph
import Verif.Props.C40
/-! # C41: includes of requirements.txt are complete -/
namespace Osv
open Str Spec

variable {fs : Str → Option Str} {order : Str → List Str → List PackageDetails → List PackageDetails}

/-- The whole result of a successful run, for any order of iteration. -/
theorem requirements_ok (ho : ∀ p r l, (order p r l).Perm l) {n : Nat} {path : Str} {ds : List PackageDetails}
    (h : parseRequirementsTxt fs order n path = some (some ds)) :
    (∀ p, IncludeReach fs path p → ReadableText fs p) ∧
    (∀ p d, IncludeReach fs path p → Requires fs p d → ∃ d' ∈ ds, detailKey d' = detailKey d) ∧
    (∀ d ∈ ds, ∃ p, IncludeReach fs path p ∧ Requires fs p d) ∧ (ds.map detailKey).Nodup := by
  unfold parseRequirementsTxt at h
  obtain ⟨⟨o, req'⟩, hx, e⟩ := Option.map_eq_some_iff.1 h
  dsimp only at e
  subst e
  have hc := Pip.at_ok ho n path [] ds req' hx
  have hsub : ∀ p, IncludeReach fs path p → p = path ∨ (p ∈ req' ∧ p ∉ ([] : List Str)) := by
    intro p hp
    induction hp with
    | root => exact Or.inl rfl
    | step _ hi ih => exact Or.inr ⟨hc.closed _ ih _ hi, by simp⟩
  refine ⟨fun p hp => hc.readable p (hsub p hp), fun p d hp hd => hc.complete p (hsub p hp) d hd, ?_, hc.nodup⟩
  intro d hd
  obtain ⟨p, hp, hr⟩ := hc.sound d hd
  refine ⟨p, ?_, hr⟩
  rcases hp with rfl | ⟨h1, h2⟩
  · exact .root
  · exact hc.reach p h1 h2

/-- Only packages named by a reachable file are reported. -/
theorem C41_sound (ho : ∀ p r l, (order p r l).Perm l) (n : Nat) (path : Str) (ds : List PackageDetails)
    (h : parseRequirementsTxt fs order n path = some (some ds)) (d : PackageDetails) (hd : d ∈ ds) :
    ∃ p, IncludeReach fs path p ∧ Requires fs p d := (requirements_ok ho h).2.2.1 d hd

/-- Parsing fails exactly if some reachable file cannot be read. -/
theorem C41_failure (ho : ∀ p r l, (order p r l).Perm l) (dom : List Str) (hdom : ∀ p, fs p ≠ none → p ∈ dom) (n : Nat)
    (hn : dom.length + 2 ≤ n) (path : Str) :
    parseRequirementsTxt fs order n path = some none ↔ ∃ p, IncludeReach fs path p ∧ ¬ ReadableText fs p := by
  constructor
  · intro h
    unfold parseRequirementsTxt at h
    obtain ⟨⟨o, req'⟩, hx, e⟩ := Option.map_eq_some_iff.1 h
    dsimp only at e
    subst e
    exact Pip.at_fail n path [] req' hx
  · rintro ⟨p, hp, hnr⟩
    obtain ⟨res, hres⟩ := C40_terminates fs dom hdom order path
    have h := hres n hn
    cases res with
    | none => exact h
    | some ds => exact absurd ((requirements_ok ho h).1 p hp) hnr

/-- The full claim. It is false because packages are kept under the key `name@version`: see `C41_counterexample`. -/
def C41_full : Prop := ∀ (fs : Str → Option Str) (order : Str → List Str → List PackageDetails → List PackageDetails),
  (∀ p r l, (order p r l).Perm l) → ∀ (n : Nat) (path : Str) (ds : List PackageDetails),
  parseRequirementsTxt fs order n path = some (some ds) →
  ∀ d, d ∈ ds ↔ ∃ p, IncludeReach fs path p ∧ Requires fs p d

/-- The packages are exactly those named by the reachable files, each once. Missing for the full claim: names must not
contain `@`. -/
theorem C41_exact_partial (ho : ∀ p r l, (order p r l).Perm l) (n : Nat) (path : Str) (ds : List PackageDetails)
    (h : parseRequirementsTxt fs order n path = some (some ds))
    (hat : ∀ p d, IncludeReach fs path p → Requires fs p d → '@' ∉ d.name) :
    ds.Nodup ∧ ∀ d, d ∈ ds ↔ ∃ p, IncludeReach fs path p ∧ Requires fs p d := by
  obtain ⟨_, hcomp, hsound, hnd⟩ := requirements_ok ho h
  refine ⟨List.Pairwise.of_map detailKey (fun a b h e => h (congrArg detailKey e)) hnd, fun d => ⟨hsound d, ?_⟩⟩
  rintro ⟨p, hp, hr⟩
  obtain ⟨d', hd', e⟩ := hcomp p d hp hr
  obtain ⟨p', hp', hr'⟩ := hsound d' hd'
  obtain ⟨e1, e2⟩ := DetailMap.key_inj e (hat _ _ hp' hr') (hat _ _ hp hr)
  have hform : ∀ {p d}, Requires fs p d → d = pypi d.name d.version := by
    rintro p d ⟨t, _, _, he⟩
    cases he <;> rfl
  have : d' = d := by rw [hform hr', hform hr, e1, e2]
  exact this ▸ hd'

/-- The condition is exact: all packages are reported if and only if no two different requirements share a key. -/
theorem C41_exact_iff (ho : ∀ p r l, (order p r l).Perm l) (n : Nat) (path : Str) (ds : List PackageDetails)
    (h : parseRequirementsTxt fs order n path = some (some ds)) :
    (∀ d, d ∈ ds ↔ ∃ p, IncludeReach fs path p ∧ Requires fs p d) ↔
      ∀ p d p' d', IncludeReach fs path p → Requires fs p d → IncludeReach fs path p' → Requires fs p' d' →
        d.name ++ g!"@" ++ d.version = d'.name ++ g!"@" ++ d'.version → d = d' := by
  obtain ⟨_, hcomp, hsound, hnd⟩ := requirements_ok ho h
  constructor
  · intro hx p d p' d' hp hr hp' hr' e
    exact DetailMap.eq_of_key hnd ((hx d).2 ⟨p, hp, hr⟩) ((hx d').2 ⟨p', hp', hr'⟩) e
  · intro hk d
    refine ⟨hsound d, ?_⟩
    rintro ⟨p, hp, hr⟩
    obtain ⟨d', hd', e⟩ := hcomp p d hp hr
    obtain ⟨p', hp', hr'⟩ := hsound d' hd'
    exact hk p' d' p d hp' hr' hp hr e ▸ hd'

/-- Every name and version that a reachable file asks for is reported, up to the key `name@version`. -/
theorem C41_keys (ho : ∀ p r l, (order p r l).Perm l) (n : Nat) (path : Str) (ds : List PackageDetails)
    (h : parseRequirementsTxt fs order n path = some (some ds)) (p : Str) (d : PackageDetails)
    (hp : IncludeReach fs path p) (hr : Requires fs p d) :
    ∃ d' ∈ ds, d'.name ++ g!"@" ++ d'.version = d.name ++ g!"@" ++ d.version := (requirements_ok ho h).2.1 p d hp hr

/-- Two requirements with the same key. -/
def reqCollisionFs (p : Str) : Option Str := if p = g!"r.txt" then some g!"foo@1==2\nfoo==1@2\n" else none

theorem C41_counterexample : ¬ C41_full := by
  intro h
  have h1 : parseRequirementsTxt reqCollisionFs (fun _ _ l => l) 3 g!"r.txt" = some (some [pypi g!"foo" g!"1@2"]) := by
    decide +kernel
  have h2 := (h reqCollisionFs (fun _ _ l => l) (fun _ _ _ => List.Perm.refl _) 3 g!"r.txt" _ h1 (pypi g!"foo@1" g!"2")).2
    ⟨g!"r.txt", .root, g!"foo@1==2", (Pip.fileLine_iff (content := g!"foo@1==2\nfoo==1@2\n") (by decide) _).2 ⟨g!"foo@1==2", by decide +kernel, by decide +kernel⟩,
      (Pip.requirementLine_iff _).1 (by decide), by
        have : parseRequirement g!"foo@1==2" = pypi g!"foo@1" g!"2" := by decide +kernel
        rw [← this]; exact Pip.parse_entry _⟩
  simp [pypi] at h2

/-- The hypotheses of `C41_exact_partial` can be met. -/
example : parseRequirementsTxt reqCycleFs (fun _ _ l => l) 4 g!"r/a.txt" =
      some (some [pypi g!"bar" g!"0.0.0", pypi g!"foo" g!"1"]) ∧
    ∀ p d, IncludeReach reqCycleFs g!"r/a.txt" p → Requires reqCycleFs p d → '@' ∉ d.name := by
  refine ⟨by decide +kernel, ?_⟩
  rintro p d _ ⟨t, ht, hr, he⟩
  have hfs : p = g!"r/a.txt" ∨ p = g!"r/b.txt" := by
    obtain ⟨c, _, _, hc, _⟩ := ht
    unfold reqCycleFs at hc
    split at hc
    · exact Or.inl (by assumption)
    · split at hc
      · exact Or.inr (by assumption)
      · cases hc
  have hd : d = parseRequirement t := Pip.entry_unique he (Pip.parse_entry t)
  subst hd
  have hr := (Pip.requirementLine_iff t).2 hr
  have key : ∀ ls : List Str, (ls.map removeComments).all (fun t => isNotRequirementLine t ||
      !List.contains (parseRequirement t).name '@') = true → (∃ j ∈ ls, removeComments j = t) →
      '@' ∉ (parseRequirement t).name := by
    rintro ls h ⟨j, hj, rfl⟩
    have := List.all_eq_true.1 h _ (List.mem_map.2 ⟨j, hj, rfl⟩)
    rw [hr] at this
    simpa using this
  rcases hfs with rfl | rfl
  · exact key _ (by decide +kernel) ((Pip.fileLine_iff (content := g!"-r a.txt\n-r b.txt\nfoo==1\n") (by decide) _).1 ht)
  · exact key _ (by decide +kernel) ((Pip.fileLine_iff (content := g!"-r ../r/a.txt\nbar\n") (by decide) _).1 ht)

end Osv
