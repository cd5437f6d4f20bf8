import Verif.Model.ReportJson
import Verif.Spec.ReportJson
import Verif.Lemmas.Json
/-! # Reading back what was encoded -/
namespace Osv
open Str Json Spec

namespace Encoded

theorem ofList_toList (l : List JVal) : (JList.ofList l).toList = l := by
  induction l with
  | nil => rfl
  | cons v l ih => simp [JList.ofList, JList.toList, ih]

theorem members_toList (l : List (Str × JVal)) : (JMembers.ofList l).toList = l := by
  induction l with
  | nil => rfl
  | cons v l ih => simp [JMembers.ofList, JMembers.toList, ih]

theorem ok_arr {l : List JVal} (h : ∀ v ∈ l, JOk v) : JOk (jarr l) := by
  unfold jarr
  simp only [JOk]
  induction l with
  | nil => simp [JList.ofList, JOkL]
  | cons v l ih => simp only [JList.ofList, JOkL]; exact ⟨h v (by simp), ih fun w hw => h w (by simp [hw])⟩

theorem ok_obj {l : List (Str × JVal)} (h : ∀ x ∈ l, JOk x.2) : JOk (jobj l) := by
  unfold jobj
  simp only [JOk]
  induction l with
  | nil => simp [JMembers.ofList, JOkM]
  | cons v l ih => simp only [JMembers.ofList, JOkM]; exact ⟨h v (by simp), ih fun w hw => h w (by simp [hw])⟩

theorem ok_slice {l : List JVal} {v : JVal} (h : ∀ v ∈ l, JOk v) (hs : Slice l v) : JOk v := by
  cases hs with
  | array => exact ok_arr h
  | null => simp [JOk]

theorem ok_textIf {k s : Str} {x : Str × JVal} (h : x ∈ textIf k s) : JOk x.2 := by
  unfold textIf at h
  split at h
  · cases h
  · rw [List.mem_singleton] at h; subst h; simp [JOk]

theorem each_mem {α β : Type} {R : α → β → Prop} {l : List α} {m : List β} (h : Each R l m) {b : β} (hb : b ∈ m) :
    ∃ a, a ∈ l ∧ R a b := by
  induction h with
  | nil => cases hb
  | @cons x y _ _ hr _ ih =>
    rcases List.mem_cons.1 hb with h | h
    · exact ⟨x, by simp, h ▸ hr⟩
    · obtain ⟨a, h1, h2⟩ := ih h; exact ⟨a, by simp [h1], h2⟩

theorem each_length {α β : Type} {R : α → β → Prop} {l : List α} {m : List β} (h : Each R l m) : l.length = m.length := by
  induction h with
  | nil => rfl
  | cons _ _ ih => simp [ih]

theorem each_total {α β : Type} {R : α → β → Prop} (h : ∀ a, ∃ b, R a b) (l : List α) : ∃ m, Each R l m := by
  induction l with
  | nil => exact ⟨[], .nil⟩
  | cons a l ih =>
    obtain ⟨b, hb⟩ := h a
    obtain ⟨m, hm⟩ := ih
    exact ⟨b :: m, .cons hb hm⟩

theorem ok_rangeEvent (e : RangeEvent) : JOk (encRangeEvent e) := by
  apply ok_obj
  intro x hx
  simp only [List.mem_append] at hx
  rcases hx with (h | h) | h <;> exact ok_textIf h

theorem ok_range {r : AffectsRange} {v : JVal} (h : EncRange r v) : JOk v := by
  obtain ⟨es, h1, rfl⟩ := h
  apply ok_obj
  have := ok_slice (by intro v hv; obtain ⟨e, _, rfl⟩ := List.mem_map.1 hv; exact ok_rangeEvent e) h1
  intro x hx
  simp only [List.mem_cons, List.not_mem_nil, or_false] at hx
  rcases hx with rfl | rfl
  · simp [textAs, JOk]
  · exact this

theorem ok_texts (l : List Str) : ∀ v ∈ l.map JVal.str, JOk v := by
  intro v hv
  obtain ⟨s, _, rfl⟩ := List.mem_map.1 hv
  simp [JOk]

theorem ok_versions (l : List Str) : JOk (encVersions l) := by
  unfold encVersions
  split
  · exact ok_arr (by simp)
  · exact ok_arr (ok_texts l)

theorem ok_affected {a : Affected} {v : JVal} (h : EncAffected a v) : JOk v := by
  obtain ⟨rs, h1, rfl⟩ := h
  apply ok_obj
  intro x hx
  simp only [List.mem_append, List.mem_cons, List.not_mem_nil, or_false] at hx
  rcases hx with (rfl | rfl) | hx
  · exact ok_obj (by simp [textAs, JOk])
  · exact ok_versions _
  · split at hx
    · cases hx
    · rw [List.mem_singleton] at hx
      subst hx
      exact ok_arr fun v hv => by obtain ⟨a, _, h⟩ := each_mem h1 hv; exact ok_range h

theorem ok_osv {o : OSV} {v : JVal} (h : EncOSV o v) : JOk v := by
  obtain ⟨al, as, af, h1, h2, h3, rfl⟩ := h
  have k1 := ok_slice (ok_texts _) h1
  have k3 := ok_slice (fun v hv => by obtain ⟨a, _, h⟩ := each_mem h2 hv; exact ok_affected h) h3
  apply ok_obj
  intro x hx
  simp only [List.mem_append, List.mem_cons, List.not_mem_nil, or_false] at hx
  rcases hx with ((rfl | rfl | rfl | rfl | rfl) | hx) | rfl | rfl
  all_goals first | exact k1 | exact k3 | (simp [textAs, JOk]; done) | skip
  split at hx
  · cases hx
  · rw [List.mem_singleton] at hx; subst hx; simp [textAs, JOk]

theorem ok_vulns {l : List OSV} {v : JVal} (h : EncVulns l v) : JOk v := by
  obtain ⟨vs, h1, rfl⟩ := h
  apply ok_arr
  split
  · simp
  · exact fun v hv => by obtain ⟨a, _, h⟩ := each_mem h1 hv; exact ok_osv h

theorem ok_pkg {p : PackageDetails} {x : Str × JVal} (h : x ∈ pkgMembers p) : JOk x.2 := by
  unfold pkgMembers at h
  simp only [List.mem_append, List.mem_cons, List.not_mem_nil, or_false] at h
  rcases h with (((rfl | rfl) | h) | h) | h
  · simp [textAs, JOk]
  · simp [textAs, JOk]
  all_goals exact ok_textIf h

theorem ok_pkgReport {p : PkgReport} {v : JVal} (h : EncPkgReport p v) : JOk v := by
  obtain ⟨vs, is, h1, h2, rfl⟩ := h
  apply ok_obj
  intro x hx
  simp only [List.mem_append, List.mem_cons, List.not_mem_nil, or_false] at hx
  rcases hx with h | rfl | rfl
  · exact ok_pkg h
  · exact ok_vulns h1
  · exact ok_vulns h2

theorem ok_result {r : Result} {v : JVal} (h : EncResult r v) : JOk v := by
  cases r with
  | lockfile l =>
    obtain ⟨pv, h1, rfl⟩ := h
    have := ok_slice (fun v hv => by
      obtain ⟨p, _, rfl⟩ := List.mem_map.1 hv
      exact ok_obj fun x hx => ok_pkg hx) h1
    exact ok_obj (by simp [textAs, JOk, this])
  | report r =>
    obtain ⟨ps, pv, h1, h2, rfl⟩ := h
    have := ok_slice (fun v hv => by obtain ⟨a, _, h⟩ := each_mem h1 hv; exact ok_pkgReport h) h2
    exact ok_obj (by simp [textAs, JOk, this])

/-! ### Reading -/

theorem lookup_obj (l : List (Str × JVal)) (k : Str) :
    lookup (jobj l) k = (l.reverse.find? fun x => decide (x.1 = k)).map (·.2) := by
  simp only [lookup, jobj, members_toList]

theorem readAll_each {α β : Type} {read : JVal → Option β} {R : α → JVal → Prop} {f : α → β}
    {l : List α} {vs : List JVal} (h : Each R l vs) (hr : ∀ a v, R a v → read v = some (f a)) :
    readAll read vs = some (l.map f) := by
  induction h with
  | nil => rfl
  | cons h1 _ ih => simp [readAll, hr _ _ h1, ih]

theorem readAll_same {α : Type} {read : JVal → Option α} {R : α → JVal → Prop} {l : List α} {vs : List JVal} (h : Each R l vs)
    (hr : ∀ a v, R a v → read v = some a) : readAll read vs = some l := by
  have := readAll_each (f := fun a => a) h hr
  simpa using this

theorem readAll_map {α β : Type} {read : JVal → Option β} {e : α → JVal} {f : α → β} (l : List α)
    (hr : ∀ a, read (e a) = some (f a)) : readAll read (l.map e) = some (l.map f) := by
  induction l with
  | nil => rfl
  | cons a l ih => simp [readAll, hr, ih]

/-- The list that a member holds. -/
def elems {α : Type} (read : JVal → Option α) : Option JVal → Option (List α)
  | none => some []
  | some .null => some []
  | some (.arr l) => readAll read l.toList
  | some _ => none

theorem listAt_eq {α : Type} (read : JVal → Option α) (v : JVal) (k : Str) : listAt read v k = elems read (lookup v k) := rfl

theorem elems_slice {α : Type} {read : JVal → Option α} {l : List JVal} {v : JVal} (h : Slice l v) :
    elems read (some v) = readAll read l := by
  cases h with
  | array => simp [elems, jarr, ofList_toList]
  | null => rfl

theorem elems_arr {α : Type} (read : JVal → Option α) (l : List JVal) : elems read (some (jarr l)) = readAll read l := by
  simp [elems, jarr, ofList_toList]

theorem readEvent_enc (e : RangeEvent) : readEvent (encRangeEvent e) = some e := by
  obtain ⟨a, b, c⟩ := e
  simp only [readEvent, textAt, encRangeEvent, lookup_obj, textIf]
  by_cases ha : a = [] <;> by_cases hb : b = [] <;> by_cases hc : c = [] <;> simp [ha, hb, hc]

theorem readRange_enc {r : AffectsRange} {v : JVal} (h : EncRange r v) : readRange v = some r := by
  obtain ⟨es, h1, rfl⟩ := h
  have h2 := elems_slice (read := readEvent) h1
  rw [readAll_map (f := id) _ fun e => by rw [readEvent_enc]; rfl] at h2
  simp [readRange, textAt, listAt_eq, lookup_obj, textAs, h2]

theorem readAll_texts (l : List Str) : readAll readText (l.map .str) = some l := by
  have := readAll_map (read := readText) (e := JVal.str) (f := id) l fun a => rfl
  simpa using this

theorem elems_versions (l : List Str) : elems readText (some (encVersions l)) = some l := by
  unfold encVersions
  split
  · rename_i h; rw [elems_arr, List.eq_nil_of_length_eq_zero h]; rfl
  · rw [elems_arr, readAll_texts]

theorem readAffected_enc {a : Affected} {v : JVal} (h : EncAffected a v) : readAffected v = some a := by
  obtain ⟨rs, h1, rfl⟩ := h
  have h2 : readAll readRange rs = some a.ranges := readAll_same h1 fun _ _ h => readRange_enc h
  have h3 := elems_versions a.versions
  by_cases h : rs.length = 0
  · have hr : a.ranges = [] := by
      apply List.eq_nil_of_length_eq_zero
      rw [each_length h1]; exact h
    have h4 : elems readRange none = some a.ranges := by rw [hr]; rfl
    simp [readAffected, textAt, listAt_eq, lookup_obj, textAs, h, encPackage, h3, h4]
  · simp only [h, if_false]
    simp [readAffected, textAt, listAt_eq, lookup_obj, textAs, encPackage, h3, elems_arr, h2]

theorem readAdvisory_enc {o : OSV} {v : JVal} (h : EncOSV o v) : readAdvisory v = some o := by
  obtain ⟨al, as, af, h1, h2, h3, rfl⟩ := h
  have h1 := elems_slice (read := readText) h1
  rw [readAll_texts] at h1
  have h3 := elems_slice (read := readAffected) h3
  have h2 : readAll readAffected as = some o.affected := readAll_same h2 fun _ _ h => readAffected_enc h
  rw [h2] at h3
  obtain ⟨id, aliases, summary, published, modified, withdrawn, details, affected⟩ := o
  cases withdrawn with
  | none => simp [readAdvisory, textAt, textAt?, listAt_eq, lookup_obj, textAs, h1, h3]
  | some t => simp [readAdvisory, textAt, textAt?, listAt_eq, lookup_obj, textAs, h1, h3]

theorem elems_vulns {l : List OSV} {v : JVal} (h : EncVulns l v) : elems readAdvisory (some v) = some l := by
  obtain ⟨vs, h1, rfl⟩ := h
  rw [elems_arr]
  have := readAll_same (read := readAdvisory) h1 fun _ _ h => readAdvisory_enc h
  split
  · rename_i h; rw [List.eq_nil_of_length_eq_zero h]; rfl
  · exact this

theorem readPackage_enc (p : PackageDetails) : readPackage (jobj (pkgMembers p)) = some p := by
  obtain ⟨a, b, c, d, e⟩ := p
  simp only [readPackage, textAt, pkgMembers, lookup_obj, textIf, textAs]
  by_cases hc : c = [] <;> by_cases hd : d = [] <;> by_cases he : e = [] <;> simp [hc, hd, he]

theorem lookup_obj_append (l m : List (Str × JVal)) (k : Str) (h : ∀ x ∈ m, x.1 ≠ k) :
    lookup (jobj (l ++ m)) k = lookup (jobj l) k := by
  rw [lookup_obj, lookup_obj, List.reverse_append, List.find?_append]
  have : m.reverse.find? (fun x => decide (x.1 = k)) = none := by
    rw [List.find?_eq_none]
    intro x hx
    simpa using h x (by simpa using hx)
  rw [this]; rfl

theorem readPkgReport_enc {p : PkgReport} {v : JVal} (h : EncPkgReport p v) : readPkgReport v = some p := by
  obtain ⟨vs, is, h1, h2, rfl⟩ := h
  have h1 := elems_vulns h1
  have h2 := elems_vulns h2
  have hp : readPackage (jobj (pkgMembers p.pkg ++ [(g!"vulnerabilities", vs), (g!"ignored", is)])) = some p.pkg := by
    rw [← readPackage_enc p.pkg]
    simp only [readPackage, textAt]
    rw [lookup_obj_append _ _ _ (by simp), lookup_obj_append _ _ _ (by simp), lookup_obj_append _ _ _ (by simp),
      lookup_obj_append _ _ _ (by simp), lookup_obj_append _ _ _ (by simp)]
  simp only [readPkgReport, hp, listAt_eq]
  simp [lookup_obj, h1, h2]

theorem readFile_report {r : Report} {v : JVal} (h : EncReport r v) : readFile readPkgReport v = some (reportContent r) := by
  obtain ⟨ps, pv, h1, h2, rfl⟩ := h
  have h2 := elems_slice (read := readPkgReport) h2
  have h1 := readAll_same (read := readPkgReport) h1 fun _ _ h => readPkgReport_enc h
  rw [h1] at h2
  simp [readFile, textAt, listAt_eq, lookup_obj, textAs, h2, reportContent]

theorem readFile_lockfile {l : Lockfile} {v : JVal} (h : EncLockfile l v) : readFile readPackage v = some (lockfileContent l) := by
  obtain ⟨pv, h1, rfl⟩ := h
  have h2 := elems_slice (read := readPackage) h1
  rw [readAll_map (f := id) _ fun e => by rw [readPackage_enc]; rfl] at h2
  simp [readFile, textAt, listAt_eq, lookup_obj, textAs, h2, lockfileContent]

end Encoded
end Osv
