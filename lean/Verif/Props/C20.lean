import Verif.Spec.Load
import Verif.Lemmas.Str
/-!
# C20 Zip archives load exactly the JSON files under the working directory

The full statement is `C20_full`; it is false, because the working directory is compared as a string prefix.
-/
namespace Osv
open Spec

/-- The advisories of an archive that should be loaded, in archive order. -/
def Spec.wanted (decode : Str → Option OSV) (P : Str → Prop) [DecidablePred P] (es : List ZipEntry) : List OSV :=
  (es.filter fun e => decide (P e.name)).filterMap fun e => e.content.bind decode

/-- The full statement: exactly the readable, well-formed `.json` entries inside the working directory are
loaded, each once and in order. -/
def C20_full : Prop :=
  ∀ (decode : Str → Option OSV) (wd : Str) (names : List Str) (es : List ZipEntry)
    (d : DecidablePred fun n => Inside wd n ∧ JsonName n),
    loadZipEntries decode wd names es =
      MemDB.loadAll (wanted decode (fun n => Inside wd n ∧ JsonName n) es) names

theorem loadZipEntries_eq (decode : Str → Option OSV) (wd : Str) (names : List Str) (es : List ZipEntry)
    (P : Str → Prop) [DecidablePred P]
    (hP : ∀ e ∈ es, P e.name ↔ (Str.hasPrefix e.name wd = true ∧ Str.hasSuffix e.name g!".json" = true)) :
    loadZipEntries decode wd names es = MemDB.loadAll (wanted decode P es) names := by
  unfold loadZipEntries MemDB.loadAll wanted
  suffices h : ∀ (db : MemDB), es.foldl (fun db e =>
      if !Str.hasPrefix e.name wd then db
      else if !Str.hasSuffix e.name g!".json" then db
      else loadZipFile decode names db e) db =
      ((es.filter fun e => decide (P e.name)).filterMap fun e => e.content.bind decode).foldl
        (fun db o => db.addVulnerability o names) db from h {}
  induction es with
  | nil => intro db; rfl
  | cons e es ih =>
    intro db
    have ih := ih (fun e' he' => hP e' (List.mem_cons_of_mem _ he'))
    have he := hP e (by simp)
    rw [List.foldl_cons, ih]
    by_cases hp : P e.name
    · obtain ⟨h1, h2⟩ := he.1 hp
      rw [List.filter_cons_of_pos (by simpa using hp), h1, h2]
      simp only [Bool.not_true, Bool.false_eq_true, if_false]
      unfold loadZipFile
      cases hc : e.content with
      | none => rw [List.filterMap_cons_none (by simp [hc])]
      | some c =>
        cases hd : decode c with
        | none => rw [List.filterMap_cons_none (by simp [hc, hd])]; simp [hd]
        | some o => rw [List.filterMap_cons_some (b := o) (by simp [hc, hd])]; simp [hd]
    · rw [List.filter_cons_of_neg (by simpa using hp)]
      congr 1
      by_cases h1 : Str.hasPrefix e.name wd = true
      · by_cases h2 : Str.hasSuffix e.name g!".json" = true
        · exact absurd (he.2 ⟨h1, h2⟩) hp
        · simp [h1, h2]
      · simp [h1]

theorem jsonName_iff (n : Str) : JsonName n ↔ Str.hasSuffix n g!".json" = true := by
  unfold JsonName Str.hasSuffix
  rw [List.isSuffixOf_iff_suffix]
  constructor
  · rintro ⟨s, rfl⟩; exact ⟨s, rfl⟩
  · rintro ⟨s, rfl⟩; exact ⟨s, rfl⟩

theorem hasPrefix_iff (n p : Str) : Str.hasPrefix n p = true ↔ ∃ r, n = p ++ r := by
  unfold Str.hasPrefix
  rw [List.isPrefixOf_iff_prefix]
  constructor
  · rintro ⟨s, rfl⟩; exact ⟨s, rfl⟩
  · rintro ⟨s, rfl⟩; exact ⟨s, rfl⟩

/-- The name of every entry inside the working directory starts with it. -/
theorem inside_hasPrefix {wd n : Str} (h : Inside wd n) : Str.hasPrefix n wd = true := by
  rw [hasPrefix_iff]
  rcases h with rfl | ⟨r, rfl⟩
  · exact ⟨n, rfl⟩
  · unfold Str.trimSuffix Str.hasSuffix
    split
    · rename_i hs
      rw [List.isSuffixOf_iff_suffix] at hs
      obtain ⟨q, rfl⟩ := hs
      refine ⟨r, ?_⟩
      simp
    · exact ⟨g!"/" ++ r, by simp⟩

/-- **C20** (partial): exact whenever no entry merely shares the text of the working directory as a prefix,
in particular (`C20_directory_partial`) when the working directory is empty or ends in a slash. -/
theorem C20_exact_partial (decode : Str → Option OSV) (wd : Str) (names : List Str) (es : List ZipEntry)
    (d : DecidablePred fun n => Inside wd n ∧ JsonName n)
    (hwd : ∀ e ∈ es, (∃ r, e.name = wd ++ r) → JsonName e.name → Inside wd e.name) :
    loadZipEntries decode wd names es =
      MemDB.loadAll (wanted decode (fun n => Inside wd n ∧ JsonName n) es) names := by
  apply loadZipEntries_eq
  intro e he
  constructor
  · rintro ⟨h1, h2⟩; exact ⟨inside_hasPrefix h1, (jsonName_iff _).1 h2⟩
  · rintro ⟨h1, h2⟩
    have hj := (jsonName_iff _).2 h2
    exact ⟨hwd e he ((hasPrefix_iff _ _).1 h1) hj, hj⟩

/-- **C20** (partial): exact for every archive if the working directory is empty or ends in a slash. -/
theorem C20_directory_partial (decode : Str → Option OSV) (wd : Str) (names : List Str) (es : List ZipEntry)
    (d : DecidablePred fun n => Inside wd n ∧ JsonName n)
    (hwd : wd = [] ∨ ∃ q, wd = q ++ g!"/") :
    loadZipEntries decode wd names es =
      MemDB.loadAll (wanted decode (fun n => Inside wd n ∧ JsonName n) es) names := by
  apply C20_exact_partial
  rintro e - ⟨r, hr⟩ -
  rcases hwd with h | ⟨q, rfl⟩
  · exact .inl h
  · refine .inr ⟨r, ?_⟩
    rw [hr]
    have : Str.trimSuffix (q ++ g!"/") g!"/" = q := by
      unfold Str.trimSuffix Str.hasSuffix
      rw [if_pos (by rw [List.isSuffixOf_iff_suffix]; exact ⟨q, rfl⟩)]
      simp
    rw [this]

/-- **C20** (unconditional part): what is loaded is always the readable well-formed `.json` entries, in order,
whose name starts with the text of the working directory, and these include everything inside it. -/
theorem C20_prefix (decode : Str → Option OSV) (wd : Str) (names : List Str) (es : List ZipEntry)
    (d : DecidablePred fun n => (∃ r, n = wd ++ r) ∧ JsonName n) :
    loadZipEntries decode wd names es =
      MemDB.loadAll (wanted decode (fun n => (∃ r, n = wd ++ r) ∧ JsonName n) es) names ∧
    ∀ n, Inside wd n → ∃ r, n = wd ++ r := by
  refine ⟨?_, fun n h => (hasPrefix_iff _ _).1 (inside_hasPrefix h)⟩
  apply loadZipEntries_eq
  intro e he
  rw [hasPrefix_iff, jsonName_iff]

/-- An advisory with the given ID and one affected npm package. -/
def c20osv (i : Str) : OSV := { id := i, affected := [{ package := ⟨g!"p", g!"npm"⟩, versions := [g!"1"] }] }

/-- An archive with one file in a sibling directory whose name extends the working directory. -/
def c20archive : List ZipEntry := [⟨g!"advisories-old/A.json", some g!"A"⟩]

/-- **C20** is false: with working directory `advisories`, files of `advisories-old` are loaded. -/
theorem C20_sibling_directory : ¬ C20_full := by
  intro h
  have h1 := h (fun s => some (c20osv s)) g!"advisories" [] c20archive (fun _ => Classical.propDecidable _)
  have hw : @wanted (fun s => some (c20osv s)) (fun n => Inside g!"advisories" n ∧ JsonName n)
      (fun _ => Classical.propDecidable _) c20archive = [] := by
    unfold wanted
    rw [List.filter_eq_nil_iff.2]
    · rfl
    · intro e he
      simp only [c20archive, List.mem_cons, List.not_mem_nil, or_false] at he
      subst he
      simp only [decide_eq_true_eq]
      rintro ⟨h | ⟨r, hr⟩, -⟩
      · cases h
      · have : Str.trimSuffix g!"advisories" g!"/" = g!"advisories" := by decide
        rw [this] at hr
        simp at hr
  rw [hw] at h1
  revert h1
  decide

/-! ### Non-vacuity -/

def c20files : List ZipEntry :=
  [⟨g!"a/x.json", some g!"A"⟩, ⟨g!"b/y.json", some g!"B"⟩, ⟨g!"a/y.txt", some g!"C"⟩, ⟨g!"a/z.json", none⟩]

example (d : DecidablePred fun n => Inside g!"a/" n ∧ JsonName n) :
    loadZipEntries (fun s => some (c20osv s)) g!"a/" [] c20files =
    MemDB.loadAll (wanted (fun s => some (c20osv s)) (fun n => Inside g!"a/" n ∧ JsonName n) c20files) [] :=
  C20_directory_partial _ _ _ _ _ (.inr ⟨g!"a", rfl⟩)
example : loadZipEntries (fun s => some (c20osv s)) g!"a/" [] c20files = MemDB.loadAll [c20osv g!"A"] [] := by
  decide

end Osv
