import Verif.Props.C14
import Verif.Lemmas.MemDB
/-! # C15 API results are never lost to detail failures -/
namespace Osv
open Spec

theorem bare_related (a b : Str) : Related { id := a } { id := b } ↔ a = b := by
  unfold Related; simp

theorem mem_bare {rs : List (List (List Str))} {o : OSV} (h : o ∈ (bareResults rs).flatten) :
    o = { id := o.id } := by
  simp only [bareResults, List.mem_flatten, List.mem_flatMap, List.mem_map] at h
  obtain ⟨l, ⟨r, -, ids, -, rfl⟩, h⟩ := h
  simp only [List.mem_map] at h
  obtain ⟨id, -, rfl⟩ := h
  rfl

/-- The detail requests are one per distinct ID that the batch queries returned. -/
theorem C15_one_request_per_id (rs : List (List (List Str))) :
    (idsToFetch (bareResults rs)).Nodup ∧
    ∀ id, id ∈ idsToFetch (bareResults rs) ↔ id ∈ rs.flatten.flatten := by
  obtain ⟨h1, h2, h3⟩ := uniqueVulns_spec (bareResults rs).flatten
  have hids : ∀ id, (∃ o ∈ (bareResults rs).flatten, o.id = id) ↔ id ∈ rs.flatten.flatten := by
    intro id
    simp only [bareResults, List.mem_flatten, List.mem_flatMap, List.mem_map]
    constructor
    · rintro ⟨o, ⟨l, ⟨r, hr, ids, hi, rfl⟩, ho⟩, rfl⟩
      obtain ⟨x, hx, rfl⟩ := List.mem_map.mp ho
      exact ⟨ids, ⟨r, hr, hi⟩, hx⟩
    · rintro ⟨ids, ⟨r, hr, hi⟩, hx⟩
      exact ⟨{ id := id }, ⟨_, ⟨r, hr, ids, hi, rfl⟩, List.mem_map.mpr ⟨id, hx, rfl⟩⟩, rfl⟩
  refine ⟨?_, ?_⟩
  · unfold idsToFetch List.Nodup
    rw [List.pairwise_map]
    exact h2.imp fun h e => h (.inl e)
  · intro id
    unfold idsToFetch
    rw [List.mem_map, ← hids]
    constructor
    · rintro ⟨o, ho, rfl⟩; exact ⟨o, h1.mem ho, rfl⟩
    · rintro ⟨o, ho, rfl⟩
      obtain ⟨o', ho', hr⟩ := h3 o ho
      refine ⟨o', ho', ?_⟩
      rw [mem_bare ho, mem_bare (h1.mem ho')] at hr
      exact (bare_related _ _).mp hr

/-- Whatever the detail requests return and in whatever order they complete, the fetched records are exactly
the records that the single requests produced. -/
theorem FetchAll.mem {S : Sorter} {env : ApiEnv} {ids : List Str} {out : List OSV}
    (h : FetchAll S env ids out) (o : OSV) :
    o ∈ out ↔ ∃ i, ∃ hi : i < ids.length, o = apiFetch env.decode (env.get i) ids[i] := by
  obtain ⟨t, hr, hf, rfl⟩ := h
  rw [(S.perm lessID _).mem_iff]
  have he : t.err = none := by
    cases he : t.err with
    | none => rfl
    | some e => obtain ⟨i, -, h⟩ := EG.final_err hr hf e he; cases h
  have hlen := (EG.inv_reachable hr).len
  constructor
  · intro ho
    obtain ⟨i, hi, rfl⟩ := List.getElem_of_mem ho
    have hi' : i < ids.length := by simpa [hlen] using hi
    obtain ⟨-, b, h1, h2⟩ := slots_ok hr hf he default i hi'
    refine ⟨i, hi', ?_⟩
    rw [List.getElem?_eq_getElem hi] at h2
    cases h2
    simp only [ApiEnv.fetchTask, Except.ok.injEq] at h1
    rw [← h1, List.getD_eq_getElem?_getD, List.getElem?_eq_getElem hi']
    rfl
  · rintro ⟨i, hi, rfl⟩
    obtain ⟨-, b, h1, h2⟩ := slots_ok hr hf he default i hi
    simp only [ApiEnv.fetchTask, Except.ok.injEq] at h1
    rw [List.getD_eq_getElem?_getD, List.getElem?_eq_getElem hi] at h1
    rw [show apiFetch env.decode (env.get i) ids[i] = b from h1]
    exact List.mem_of_getElem? h2

/-- Every reported record carries the ID from the batch response (`C14_aligned`); it is a fetched record
exactly when one with that ID was fetched, and otherwise the bare record with that ID. -/
theorem C15_details (S : Sorter) (env : ApiEnv) (size : Nat) (pkgs : List PackageDetails)
    (out : List (List OSV)) (h : APICheck S env size pkgs (.ok out)) :
    ∃ ids : List Str, ids.Nodup ∧ (∀ id, id ∈ ids ↔ ∃ vs ∈ out, ∃ v ∈ vs, v.id = id) ∧
      ∀ vs ∈ out, ∀ v ∈ vs,
        ((∃ i, ∃ hi : i < ids.length, (apiFetch env.decode (env.get i) ids[i]).id = v.id) →
          ∃ i, ∃ hi : i < ids.length, v = apiFetch env.decode (env.get i) ids[i]) ∧
        ((¬ ∃ i, ∃ hi : i < ids.length, (apiFetch env.decode (env.get i) ids[i]).id = v.id) →
          v = { id := v.id }) := by
  obtain ⟨batches, hb, s, hr, hf, hm⟩ := h
  cases he : s.err with
  | some e => rw [he] at hm; cases hm
  | none =>
    rw [he] at hm
    obtain ⟨osvs, hfetch, hout⟩ := hm
    simp only [Except.ok.injEq] at hout
    let rs := s.slots.map fun o => o.getD []
    have hmem : ∀ vs ∈ out, ∀ v ∈ vs, ∃ d ∈ (bareResults rs).flatten, v = findOrDefault osvs d := by
      intro vs hvs v hv
      rw [hout] at hvs
      obtain ⟨ds, hds, rfl⟩ := List.mem_map.mp hvs
      obtain ⟨d, hd, rfl⟩ := List.mem_map.mp hv
      exact ⟨d, List.mem_flatten.mpr ⟨ds, hds, hd⟩, rfl⟩
    obtain ⟨hn, hids⟩ := C15_one_request_per_id rs
    refine ⟨idsToFetch (bareResults rs), hn, ?_, ?_⟩
    · intro id
      rw [hids]
      constructor
      · intro hid
        have : ∃ o ∈ (bareResults rs).flatten, o.id = id := by
          simp only [List.mem_flatten] at hid
          obtain ⟨ids, ⟨r, hr, hi⟩, hx⟩ := hid
          simp only [bareResults, List.mem_flatten, List.mem_flatMap, List.mem_map]
          exact ⟨{ id := id }, ⟨_, ⟨r, hr, ids, hi, rfl⟩, List.mem_map.mpr ⟨id, hx, rfl⟩⟩, rfl⟩
        obtain ⟨o, ho, rfl⟩ := this
        obtain ⟨ds, hds, hd⟩ := List.mem_flatten.mp ho
        refine ⟨ds.map (findOrDefault osvs), ?_, findOrDefault osvs o, List.mem_map.mpr ⟨o, hd, rfl⟩,
          findOrDefault_id _ _⟩
        rw [hout]
        exact List.mem_map.mpr ⟨ds, hds, rfl⟩
      · rintro ⟨vs, hvs, v, hv, rfl⟩
        obtain ⟨d, hd, rfl⟩ := hmem vs hvs v hv
        rw [findOrDefault_id]
        simp only [bareResults, List.mem_flatten, List.mem_flatMap, List.mem_map] at hd
        obtain ⟨l, ⟨r, hr, ids, hi, rfl⟩, ho⟩ := hd
        obtain ⟨x, hx, rfl⟩ := List.mem_map.mp ho
        simp only [List.mem_flatten]
        exact ⟨ids, ⟨r, hr, hi⟩, hx⟩
    · intro vs hvs v hv
      obtain ⟨d, hd, rfl⟩ := hmem vs hvs v hv
      rw [findOrDefault_id]
      constructor
      · rintro ⟨i, hi, hid⟩
        have hin : apiFetch env.decode (env.get i) (idsToFetch (bareResults rs))[i] ∈ osvs :=
          (FetchAll.mem hfetch _).mpr ⟨i, hi, rfl⟩
        unfold findOrDefault
        cases hfind : osvs.find? fun v => v.id = d.id with
        | none =>
          have := List.find?_eq_none.mp hfind _ hin
          exact absurd hid (by simpa using this)
        | some v => exact (FetchAll.mem hfetch v).mp (List.mem_of_find?_eq_some hfind)
      · intro hno
        unfold findOrDefault
        cases hfind : osvs.find? fun v => v.id = d.id with
        | none => exact mem_bare hd
        | some v =>
          exfalso
          apply hno
          obtain ⟨i, hi, hv⟩ := (FetchAll.mem hfetch v).mp (List.mem_of_find?_eq_some hfind)
          exact ⟨i, hi, by rw [← hv]; simpa using List.find?_some hfind⟩

/-- One of the requests for `ids` was answered with status 200 and a readable body, from which `v` was decoded. -/
def Answered (env : ApiEnv) (ids : List Str) (v : OSV) : Prop :=
  ∃ i, ∃ hi : i < ids.length, ∃ body, env.get i ids[i] = .response 200 (some body) ∧ v = env.decode body

theorem apiFetch_cases (decode : Str → OSV) (get : Str → HttpOutcome) (id : Str) :
    (∃ body, get id = .response 200 (some body) ∧ apiFetch decode get id = decode body) ∨
    ((∀ body, get id ≠ .response 200 (some body)) ∧ apiFetch decode get id = default) := by
  unfold apiFetch
  split
  · exact .inr ⟨by simp [*], rfl⟩
  · exact .inr ⟨by simp [*], rfl⟩
  · rename_i status body h
    split
    · rename_i hs
      exact .inr ⟨fun b e => by rw [h] at e; cases e; exact hs rfl, rfl⟩
    · rename_i hs
      have hs : status = 200 := Decidable.of_not_not hs
      subst hs
      cases body with
      | none => exact .inr ⟨by simp [*], rfl⟩
      | some b => exact .inl ⟨b, h, rfl⟩

/-- In terms of the answers of the server: what is reported is either decoded from an answer with status 200, or a record that
has nothing but its ID; and if an answer has the ID then the answer is reported. -/
theorem C15_answered (S : Sorter) (env : ApiEnv) (size : Nat) (pkgs : List PackageDetails)
    (out : List (List OSV)) (h : APICheck S env size pkgs (.ok out)) :
    ∃ ids : List Str, ids.Nodup ∧ (∀ id, id ∈ ids ↔ ∃ vs ∈ out, ∃ v ∈ vs, v.id = id) ∧
      ∀ vs ∈ out, ∀ v ∈ vs, (Answered env ids v ∨ v = { id := v.id }) ∧
        (v.id ≠ [] → (∃ w, Answered env ids w ∧ w.id = v.id) → Answered env ids v) := by
  obtain ⟨ids, h1, h2, h3⟩ := C15_details S env size pkgs out h
  refine ⟨ids, h1, h2, fun vs hvs v hv => ?_⟩
  obtain ⟨hf, hn⟩ := h3 vs hvs v hv
  have key : (∃ i, ∃ hi : i < ids.length, v = apiFetch env.decode (env.get i) ids[i]) →
      Answered env ids v ∨ v = default := by
    rintro ⟨i, hi, e⟩
    rcases apiFetch_cases env.decode (env.get i) ids[i] with ⟨b, hg, hd⟩ | ⟨-, hd⟩
    · exact .inl ⟨i, hi, b, hg, e.trans hd⟩
    · exact .inr (e.trans hd)
  refine ⟨?_, ?_⟩
  · by_cases hx : ∃ i, ∃ hi : i < ids.length, (apiFetch env.decode (env.get i) ids[i]).id = v.id
    · rcases key (hf hx) with ha | ha
      · exact .inl ha
      · exact .inr (by rw [ha]; rfl)
    · exact .inr (hn hx)
  · rintro hne ⟨w, ⟨i, hi, b, hg, rfl⟩, hw⟩
    have hx : (apiFetch env.decode (env.get i) ids[i]).id = v.id := by
      rcases apiFetch_cases env.decode (env.get i) ids[i] with ⟨b', hg', hd⟩ | ⟨hno, -⟩
      · rw [hg] at hg'; cases hg'; rw [hd, hw]
      · exact absurd hg (hno b)
    rcases key (hf ⟨i, hi, hx⟩) with ha | ha
    · exact ha
    · rw [ha] at hne; exact absurd rfl hne

/-- With every detail request failing, a finding is still reported with its ID. -/
example : findOrDefault [default] { id := g!"GHSA-1" } = { id := g!"GHSA-1" } := by decide

end Osv
