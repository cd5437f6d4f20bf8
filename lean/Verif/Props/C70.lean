import Verif.Lemmas.Advisory
import Verif.Lemmas.ReportJson
import Verif.Props.C69
import Verif.Spec.World
/-! # C70 Advisories are read as written -/
namespace Osv
open Str Json Spec

/-- A text is read as an advisory exactly if it is a JSON object that describes this advisory: every field has the value of the
member with its name, members with other names have no influence, and a value of a wrong type makes the whole advisory
unreadable. -/
theorem C70_decoded (canon : Str → Option Str) (text : Str) (m : JMembers) (h : parse text = some (.obj m)) (hp : PlainAdvisory m)
    (o : OSV) : unmarshalOSV canon text = some o ↔ IsAdvisory canon o m := by
  unfold unmarshalOSV
  rw [h]
  exact Adv.advisory_iff canon m hp o

/-- A text that is neither an object nor `null` is no advisory; `null` is read as an advisory without content. -/
theorem C70_other (canon : Str → Option Str) (text : Str) (h : ∀ m, parse text ≠ some (.obj m)) (o : OSV) :
    unmarshalOSV canon text = some o ↔ parse text = some .null ∧ o = { id := [] } := by
  unfold unmarshalOSV
  cases hv : parse text with
  | none => simp
  | some v =>
    cases v with
    | obj m => exact absurd hv (h m)
    | null => simp [decOSV, decStruct, default, eq_comm]
    | _ => simp [decOSV, decStruct]

theorem decElems_each {α : Type} {dec : JVal → Option α} {R : α → JVal → Prop} {xs : List α} {vs : List JVal} (h : Each R xs vs)
    (hd : ∀ a v, R a v → dec v = some a) : decElems dec vs = some xs := by
  induction h with
  | nil => rfl
  | cons h1 _ ih => simp [decElems, hd _ _ h1, ih]

theorem decElems_map {α : Type} {dec : JVal → Option α} {e : α → JVal} (xs : List α) (hd : ∀ a, dec (e a) = some a) :
    decElems dec (xs.map e) = some xs := by
  induction xs with
  | nil => rfl
  | cons a xs ih => simp [decElems, hd, ih]

theorem decSlice_slice {α : Type} {dec : JVal → Option α} {vs : List JVal} {v : JVal} (h : Slice vs v) :
    decSlice dec v = decElems dec vs := by
  cases h with
  | array => simp [decSlice, jarr, Encoded.ofList_toList]
  | null => rfl

theorem decSlice_arr {α : Type} (dec : JVal → Option α) (vs : List JVal) : decSlice dec (jarr vs) = decElems dec vs := by
  simp [decSlice, jarr, Encoded.ofList_toList]

theorem decStruct_obj {σ : Type} (fields : List Str) (step : Str → JVal → σ → Option σ) (l : List (Str × JVal)) (s : σ) :
    decStruct fields step (jobj l) s = decMembers fields step l s := by
  simp [decStruct, jobj, Encoded.members_toList]

theorem decRangeEvent_enc (e : RangeEvent) : decRangeEvent (encRangeEvent e) = some e := by
  obtain ⟨a, b, c⟩ := e
  unfold decRangeEvent encRangeEvent
  rw [decStruct_obj]
  by_cases ha : a = [] <;> by_cases hb : b = [] <;> by_cases hc : c = [] <;>
    simp [ha, hb, hc, textIf, decMembers, fieldOf, rangeEventFields, rangeEventStep, decStr]

theorem decRange_enc {r : AffectsRange} {v : JVal} (h : EncRange r v) : decRange v = some r := by
  obtain ⟨es, h1, rfl⟩ := h
  have h2 := decSlice_slice (dec := decRangeEvent) h1
  rw [decElems_map _ decRangeEvent_enc] at h2
  unfold decRange
  rw [decStruct_obj]
  simp [textAs, decMembers, fieldOf, rangeFields, rangeStep, decStr, h2]

theorem decVersions_enc (l : List Str) : decSlice (fun w => decStr w []) (encVersions l) = some l := by
  unfold encVersions
  split
  · rename_i h; rw [decSlice_arr, List.eq_nil_of_length_eq_zero h]; rfl
  · rw [decSlice_arr, decElems_map (e := JVal.str) l fun _ => rfl]

theorem decAffected_enc {a : Affected} {v : JVal} (h : EncAffected a v) : decAffected v = some a := by
  obtain ⟨rs, h1, rfl⟩ := h
  have h2 : decElems decRange rs = some a.ranges := decElems_each h1 fun _ _ h => decRange_enc h
  have h3 := decVersions_enc a.versions
  have h4 : decStruct packageFields packageStep (encPackage a.package) ⟨[], []⟩ = some a.package := by
    unfold encPackage
    rw [decStruct_obj]
    simp [textAs, decMembers, fieldOf, packageFields, packageStep, decStr]
  unfold decAffected
  rw [decStruct_obj]
  by_cases h : rs.length = 0
  · have hr : a.ranges = [] := by
      apply List.eq_nil_of_length_eq_zero
      rw [Encoded.each_length h1]; exact h
    simp only [h, if_true]
    simp [decMembers, fieldOf, affectedFields, affectedStep, h3, h4]
    rw [← hr]
  · simp only [h, if_false]
    have h5 := decSlice_arr decRange rs
    rw [h2] at h5
    simp [decMembers, fieldOf, affectedFields, affectedStep, h3, h4, h5]

/-- An advisory that is written as JSON is read back, provided that its times are. -/
theorem C70_roundtrip (canon : Str → Option Str) (o : OSV) (v : JVal) (h : EncOSV o v)
    (hp : canon o.published = some o.published) (hm : canon o.modified = some o.modified)
    (hw : ∀ t, o.withdrawn = some t → canon t = some t) : unmarshalOSV canon (render v) = some o := by
  unfold unmarshalOSV
  rw [parse_render v (Encoded.ok_osv h), Option.bind_some]
  obtain ⟨al, as, af, h1, h2, h3, rfl⟩ := h
  have h1 := decSlice_slice (dec := fun w => decStr w []) h1
  rw [decElems_map (e := JVal.str) _ fun _ => rfl] at h1
  have h3 := decSlice_slice (dec := decAffected) h3
  rw [decElems_each h2 fun _ _ h => decAffected_enc h] at h3
  have hs : ∀ s old, decStr (.str s) old = some s := fun _ _ => rfl
  unfold decOSV
  rw [decStruct_obj]
  obtain ⟨id, aliases, summary, published, modified, withdrawn, details, affected⟩ := o
  dsimp only at *
  cases withdrawn with
  | none => simp [textAs, decMembers, fieldOf, osvFields, osvStep, hs, decTime, h1, h3, hp, hm, default]
  | some t =>
    simp [textAs, decMembers, fieldOf, osvFields, osvStep, hs, decTime, decTimePtr, h1, h3, hp, hm, hw t rfl, default]

/-- An archive has an advisory if one of its `.json` files describes it. -/
theorem C70_zip (canon : Str → Option Str) (L : LoadEnv) (hL : L.decode = unmarshalOSV canon) (c : DBConfig) (offline : Bool)
    (body : Bytes) (t : Str) (es : List ZipEntry) (e : ZipEntry) (text : Str) (type : c.type = g!"zip")
    (fetched : L.fetch c.url c.workingDirectory offline = .ok body t) (unzipped : L.unzip body = some es) (mem : e ∈ es)
    (inside : Inside c.workingDirectory e.name) (json : JsonName e.name) (content : e.content = some text)
    (m : JMembers) (hm : parse text = some (.obj m)) (hp : PlainAdvisory m) (o : OSV) (ho : IsAdvisory canon o m) :
    Published L c offline o :=
  .zip body t es e text type fetched unzipped mem inside json content (by rw [hL]; exact (C70_decoded canon text m hm hp o).2 ho)

/-- A directory has an advisory if one of its `.json` files describes it. -/
theorem C70_dir (canon : Str → Option Str) (L : LoadEnv) (hL : L.decode = unmarshalOSV canon) (c : DBConfig) (offline : Bool)
    (path name text : Str) (type : c.type = g!"dir") (uri : L.parseURI c.url = some path)
    (mem : (name, some text) ∈
      files (Path.base (Path.join2 (Str.trimPrefix path g!"/") c.workingDirectory))
        (L.tree (Path.join2 (Str.trimPrefix path g!"/") c.workingDirectory)))
    (json : JsonName name)
    (m : JMembers) (hm : parse text = some (.obj m)) (hp : PlainAdvisory m) (o : OSV) (ho : IsAdvisory canon o m) :
    Published L c offline o :=
  .dir path name text type uri mem json (by rw [hL]; exact (C70_decoded canon text m hm hp o).2 ho)

/-! ### Non-vacuity -/

/-- An advisory as it is published, with members that are not used. -/
def sampleAdvisoryText : Str :=
  g!"{\"schema_version\":\"1.4.0\", \"id\":\"GHSA-1\", \"modified\":\"2020-01-01T00:00:00Z\", \"aliases\":[\"CVE-1\"],
  \"affected\":[{\"package\":{\"name\":\"left-pad\",\"ecosystem\":\"npm\",\"purl\":\"pkg:npm/left-pad\"},
  \"ranges\":[{\"type\":\"SEMVER\",\"events\":[{\"introduced\":\"0\"},{\"fixed\":\"1.2.3\"}],\"repo\":null}],\"versions\":null}]}"

example : unmarshalOSV some sampleAdvisoryText = some {
    id := g!"GHSA-1"
    aliases := [g!"CVE-1"]
    modified := g!"2020-01-01T00:00:00Z"
    affected := [⟨⟨g!"left-pad", g!"npm"⟩, [], [⟨g!"SEMVER", [{ introduced := g!"0" }, { fixed := g!"1.2.3" }]⟩]⟩] } := by
  decide +kernel

/-- A version that is a number makes the advisory unreadable. -/
example : unmarshalOSV some g!"{\"id\":\"A\",\"affected\":[{\"versions\":[1]}]}" = none := by decide +kernel

example : PlainAdvisory (.cons g!"id" (.str g!"A") (.cons g!"x" .null .nil)) ∧
    IsAdvisory some { id := g!"A" } (.cons g!"id" (.str g!"A") (.cons g!"x" .null .nil)) := by
  refine ⟨⟨⟨by unfold DistinctKeys; decide, by decide⟩, ?_⟩, ?_⟩
  · rintro a ⟨l, h, _⟩
    simp [Member, JMembers.toList] at h
  · refine ⟨.inl ?_, .inr ⟨rfl, ?_⟩, .inr ⟨rfl, ?_⟩, .inr ⟨rfl, ?_⟩, .inr ⟨rfl, ?_⟩, .inr ⟨rfl, ?_⟩, .inr ⟨rfl, ?_⟩, .inr ⟨rfl, ?_⟩⟩
    all_goals simp [Member, JMembers.toList]

end Osv
