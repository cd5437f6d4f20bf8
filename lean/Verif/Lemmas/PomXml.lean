import Verif.Spec.PomXml
import Verif.Lemmas.Maven
/-! # Decoding of a pom -/
namespace Osv.Pom
open Osv Str Spec

theorem named_elem (n m : Str) (k rest : List XNode) :
    named n (.elem m k :: rest) = if m = n then k :: named n rest else named n rest := by
  unfold named
  by_cases h : m = n <;> simp [h]

theorem named_text (n s : Str) (rest : List XNode) : named n (.text s :: rest) = named n rest := rfl
theorem named_other (n : Str) (rest : List XNode) : named n (.other :: rest) = named n rest := rfl

theorem string (kids : List XNode) (acc : Str) : xmlString acc kids = acc ++ textOf kids := by
  induction kids generalizing acc with
  | nil => simp [xmlString, textOf]
  | cons x rest ih => cases x <;> simp [xmlString, ih, textOf]

/-- The last value, or the given one. -/
def over (n : Str) (kids : List XNode) (d : Str) : Str := (valueOf n kids).getD d

theorem over_nil (n d : Str) : over n [] d = d := rfl

theorem valueOf_nil (n : Str) : valueOf n [] = none := rfl

theorem valueOf_elem (n m : Str) (k rest : List XNode) :
    valueOf n (.elem m k :: rest) = if m = n then some ((valueOf n rest).getD (textOf k)) else valueOf n rest := by
  unfold valueOf
  rw [named_elem]
  by_cases h : m = n
  · rw [if_pos h, if_pos h]
    cases hl : named n rest with
    | nil => rfl
    | cons a l =>
      rw [List.getLast?_cons_cons]
      cases hg : (a :: l).getLast? with
      | none => simp at hg
      | some x => rfl
  · rw [if_neg h, if_neg h]

theorem over_elem (n m d : Str) (k rest : List XNode) :
    over n (.elem m k :: rest) d = over n rest (if m = n then textOf k else d) := by
  unfold over
  rw [valueOf_elem]
  by_cases h : m = n
  · rw [if_pos h, if_pos h]; rfl
  · rw [if_neg h, if_neg h]

theorem dependency (kids : List XNode) (d : MavenLockDependency) : xmlDependency d kids =
    ⟨over g!"groupId" kids d.groupID, over g!"artifactId" kids d.artifactID, over g!"version" kids d.version⟩ := by
  induction kids generalizing d with
  | nil => rfl
  | cons x rest ih =>
    cases x with
    | text s => exact ih d
    | other => exact ih d
    | elem m k =>
      unfold xmlDependency
      rw [over_elem, over_elem, over_elem]
      have hs : xmlString [] k = textOf k := by rw [string]; rfl
      by_cases h1 : m = g!"groupId"
      · subst h1; rw [if_pos rfl, ih, hs]; rfl
      by_cases h2 : m = g!"artifactId"
      · subst h2; rw [if_neg h1, if_pos rfl, ih, hs]; rfl
      by_cases h3 : m = g!"version"
      · subst h3; rw [if_neg h1, if_neg h2, if_pos rfl, ih, hs]; rfl
      rw [if_neg h1, if_neg h2, if_neg h3, ih, if_neg h1, if_neg h2, if_neg h3]

theorem get_set {α : Type} (m : SMap α) (k n : Str) (v : α) : (m.set k v).get? n = if k = n then some v else m.get? n := by
  induction m with
  | nil =>
    simp only [SMap.set, SMap.get?, List.lookup_cons, List.lookup_nil]
    by_cases h : k = n
    · simp [h]
    · have : (n == k) = false := by simp [Ne.symm h]
      simp [h, this]
  | cons x m ih =>
    obtain ⟨k', w⟩ := x
    unfold SMap.set
    by_cases h : k' = k
    · subst h
      rw [if_pos rfl]
      simp only [SMap.get?, List.lookup_cons]
      by_cases hn : k' = n
      · simp [hn]
      · have : (n == k') = false := by simp [Ne.symm hn]
        simp [hn, this]
    · rw [if_neg h]
      simp only [SMap.get?, List.lookup_cons] at ih ⊢
      by_cases hn : k' = n
      · subst hn
        simp [Ne.symm h]
      · have : (n == k') = false := by simp [Ne.symm hn]
        rw [this]
        exact ih

theorem properties (kids : List XNode) (m : SMap Str) (n : Str) :
    (xmlProperties m kids).get? n = (valueOf n kids).or (m.get? n) := by
  induction kids generalizing m with
  | nil => rfl
  | cons x rest ih =>
    cases x with
    | text s => exact ih m
    | other => exact ih m
    | elem k c =>
      unfold xmlProperties
      rw [ih, get_set, valueOf_elem, string]
      by_cases h : k = n
      · rw [if_pos h, if_pos h]
        cases valueOf n rest <;> rfl
      · rw [if_neg h, if_neg h]

theorem dependencies (kids : List XNode) (acc : List MavenLockDependency) :
    xmlDependencies acc kids = acc ++ (elementsAt [g!"dependency"] kids).map writtenDependency := by
  have e : elementsAt [g!"dependency"] kids = named g!"dependency" kids := by
    simp [elementsAt]
  rw [e]
  clear e
  induction kids generalizing acc with
  | nil => simp [xmlDependencies, named]
  | cons x rest ih =>
    cases x with
    | text s => exact ih acc
    | other => exact ih acc
    | elem m k =>
      unfold xmlDependencies
      rw [named_elem]
      by_cases h : m = g!"dependency"
      · rw [if_pos h, if_pos h, ih, dependency]
        simp [writtenDependency, over]
      · rw [if_neg h, if_neg h, ih]

theorem elementsAt_elem (n m : Str) (path : List Str) (k rest : List XNode) : elementsAt (n :: path) (.elem m k :: rest) =
    (if m = n then elementsAt path k else []) ++ elementsAt (n :: path) rest := by
  simp only [elementsAt, named_elem]
  by_cases h : m = n <;> simp [h]

theorem managed (kids : List XNode) (acc : List MavenLockDependency) :
    xmlManaged acc kids = acc ++ (elementsAt [g!"dependencies", g!"dependency"] kids).map writtenDependency := by
  induction kids generalizing acc with
  | nil => simp [xmlManaged, elementsAt, named]
  | cons x rest ih =>
    cases x with
    | text s => exact ih acc
    | other => exact ih acc
    | elem m k =>
      unfold xmlManaged
      rw [elementsAt_elem]
      by_cases h : m = g!"dependencies"
      · rw [if_pos h, if_pos h, ih, dependencies]; simp
      · rw [if_neg h, if_neg h, ih]; simp

theorem project (kids : List XNode) (f : MavenLockFile) :
    (∀ n, (xmlProject f kids).properties.get? n =
      match (named g!"properties" kids).getLast? with | some k => valueOf n k | none => f.properties.get? n) ∧
    (xmlProject f kids).dependencies =
      f.dependencies ++ (elementsAt [g!"dependencies", g!"dependency"] kids).map writtenDependency ∧
    (xmlProject f kids).managedDependencies =
      f.managedDependencies ++ (elementsAt [g!"dependencyManagement", g!"dependencies", g!"dependency"] kids).map writtenDependency := by
  induction kids generalizing f with
  | nil => simp [xmlProject, elementsAt, named]
  | cons x rest ih =>
    cases x with
    | text s => exact ih f
    | other => exact ih f
    | elem m k =>
      unfold xmlProject
      rw [elementsAt_elem, elementsAt_elem]
      by_cases h1 : m = g!"properties"
      · subst h1
        rw [if_pos rfl]
        obtain ⟨i1, i2, i3⟩ := ih { f with properties := xmlProperties [] k }
        refine ⟨fun n => ?_, ?_, ?_⟩
        · rw [i1, named_elem, if_pos rfl]
          cases hn : named g!"properties" rest with
          | nil =>
            simp only [List.getLast?_nil, List.getLast?_singleton]
            rw [properties]
            cases valueOf n k <;> rfl
          | cons a l => rw [List.getLast?_cons_cons]; cases hg : (a :: l).getLast? with
            | none => simp at hg
            | some x => rfl
        · rw [i2, if_neg (by decide)]; rfl
        · rw [i3, if_neg (by decide)]; rfl
      rw [if_neg h1]
      have hp : named g!"properties" (.elem m k :: rest) = named g!"properties" rest := by rw [named_elem, if_neg h1]
      rw [hp]
      by_cases h2 : m = g!"dependencies"
      · subst h2
        rw [if_pos rfl]
        obtain ⟨i1, i2, i3⟩ := ih { f with dependencies := xmlDependencies f.dependencies k }
        refine ⟨i1, ?_, ?_⟩
        · rw [i2, if_pos rfl, dependencies]; simp
        · rw [i3, if_neg (by decide)]; rfl
      rw [if_neg h2, if_neg h2]
      by_cases h3 : m = g!"dependencyManagement"
      · subst h3
        rw [if_pos rfl]
        obtain ⟨i1, i2, i3⟩ := ih { f with managedDependencies := xmlManaged f.managedDependencies k }
        refine ⟨i1, i2, ?_⟩
        rw [i3, if_pos rfl, managed]; simp
      rw [if_neg h3, if_neg h3]
      exact ih f

/-- An element with another name is skipped. -/
theorem skip (a b : List XNode) {x : XNode}
    (hx : ∀ n k, x = .elem n k → n ≠ g!"properties" ∧ n ≠ g!"dependencies" ∧ n ≠ g!"dependencyManagement") (f : MavenLockFile) :
    xmlProject f (a ++ x :: b) = xmlProject f (a ++ b) := by
  induction a generalizing f with
  | nil =>
    cases x with
    | text s => rfl
    | other => rfl
    | elem n k =>
      obtain ⟨h1, h2, h3⟩ := hx n k rfl
      show xmlProject f (.elem n k :: b) = xmlProject f b
      rw [xmlProject, if_neg h1, if_neg h2, if_neg h3]
  | cons y a ih =>
    cases y with
    | text s => exact ih f
    | other => exact ih f
    | elem n k =>
      simp only [List.cons_append, xmlProject]
      rw [ih, ih, ih, ih]

end Osv.Pom
