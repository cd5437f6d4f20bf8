import Verif.Lemmas.Advisory
import Verif.Lemmas.ReportJson
import Verif.Lemmas.Path
import Verif.Model.ApiJson
import Verif.Props.C14
import Verif.Spec.ApiJson
/-!
# C71 Requests to the API and its responses

A result that continues on another page is taken as complete (`C71_counterexample`).
-/
namespace Osv
open Str Json Spec

theorem readQuery_enc (q : ApiQuery) : readQuery (encQuery q) = some q := by
  obtain ⟨a, b, c, d⟩ := q
  simp only [readQuery, textAt, encQuery, Encoded.lookup_obj, textIf, textAs]
  by_cases ha : a = [] <;> by_cases hb : b = [] <;> simp [ha, hb, Encoded.lookup_obj]

/-- The body of the request is a JSON document from which the server reads one query per package, in order. -/
theorem C71_request (pkgs : List PackageDetails) :
    ∃ doc, parse (batchBody pkgs) = some doc ∧ readQueries doc = some (pkgs.map buildAPIPayload) := by
  refine ⟨_, parse_render _ ?_, ?_⟩
  · refine Encoded.ok_obj fun x hx => ?_
    rw [List.mem_singleton] at hx
    subst hx
    refine Encoded.ok_arr fun v hv => ?_
    obtain ⟨q, _, rfl⟩ := List.mem_map.1 hv
    refine Encoded.ok_obj fun x hx => ?_
    simp only [List.mem_append, List.mem_singleton] at hx
    rcases hx with (h | h) | rfl
    · exact Encoded.ok_textIf h
    · exact Encoded.ok_textIf h
    · exact Encoded.ok_obj (by simp [textAs, JOk])
  · rw [readQueries, Encoded.listAt_eq, Encoded.lookup_obj]
    refine Eq.trans (Encoded.elems_arr _ _) ?_
    have := Encoded.readAll_map (read := readQuery) (e := encQuery) (f := id) (pkgs.map buildAPIPayload) readQuery_enc
    simpa using this

theorem single_field {α : Type} {dec : JVal → α → Option α} {zero : α} {f : Str} (m : JMembers) (hp : PlainKeys [f] m)
    (hany : ∀ v old x, dec v zero = some x → ∃ y, dec v old = some y) (x : α) :
    decMembers [f] (fun _ v old => dec v old) m.toList zero = some x ↔ Adv.Says m.toList f (fun v => dec v zero) zero x := by
  have key : ∀ t, decMembers [f] (fun _ v old => dec v old) m.toList zero = some t →
      Adv.Says m.toList f (fun v => dec v zero) zero t := fun t ht =>
    Adv.says_field f (fun s => s) dec (by simp) (fun v s s' h => h) (fun g hg hne => absurd (List.mem_singleton.1 hg) hne)
      m.toList hp.1 hp.2 zero t ht
  constructor
  · exact key x
  · intro h
    obtain ⟨t, ht⟩ := Adv.struct_total (step := fun _ v old => dec v old) m hp (fun g hg v hv s => by
      rw [List.mem_singleton.1 hg] at hv
      exact hany v s x (Adv.says_dec hp.1 h v hv)) zero
    rw [ht, Adv.says_unique hp.1 (key t ht) h]

theorem vuln_iff (v : JVal) (hp : ∀ m, v = .obj m → PlainKeys [g!"id"] m) (id : Str) : decObjectWithID v = some id ↔ IsVuln id v := by
  unfold decObjectWithID IsVuln
  cases v with
  | obj m =>
    have hp := hp m rfl
    refine Iff.trans (single_field (dec := decStr) m hp (fun v old x h => Adv.decStr_any h old) id) ?_
    rw [Adv.says_text m hp.1]
    simp
  | null => simp [decStruct, eq_comm]
  | _ => simp [decStruct]

theorem batchResult_iff (v : JVal) (hp : ∀ m, v = .obj m → PlainKeys [g!"vulns"] m ∧
    ∀ v, InList m g!"vulns" (.obj v) → PlainKeys [g!"id"] v) (ids : List Str) : decBatchResult v = some ids ↔ IsBatchResult ids v := by
  unfold decBatchResult IsBatchResult
  cases v with
  | obj m =>
    obtain ⟨hp, hpv⟩ := hp m rfl
    refine Iff.trans (single_field (dec := fun w _ => decSlice decObjectWithID w) m hp (fun v old x h => ⟨x, h⟩) ids) ?_
    rw [Adv.says_list (R := IsVuln) m hp.1 _ fun v hv a => vuln_iff v (fun e he => hpv e (he ▸ hv)) a]
    simp
  | null => simp [decStruct, eq_comm]
  | _ => simp [decStruct]

/-- A response is read exactly if it is a JSON object that lists these IDs per result, in order; other members have no influence. -/
theorem C71_response (text : Str) (m : JMembers) (h : parse text = some (.obj m)) (hp : PlainBatch m) (rs : List (List Str)) :
    unmarshalBatch text = some rs ↔ IsBatch rs m := by
  obtain ⟨hp, hpr⟩ := hp
  unfold unmarshalBatch IsBatch
  rw [h, Option.bind_some]
  refine Iff.trans (single_field (dec := fun w _ => decSlice decBatchResult w) m hp (fun v old x h => ⟨x, h⟩) rs) ?_
  rw [Adv.says_list (R := IsBatchResult) m hp.1 _ fun v hv a => batchResult_iff v (fun e he => hpr e (he ▸ hv)) a]

/-- The full statement: if a batch succeeds then its results are complete. -/
def C71_full : Prop :=
  ∀ (post : List ApiQuery → HttpOutcome) (pkgs : List PackageDetails) (rs : List (List Str)),
    checkBatch unmarshalBatch post pkgs = .ok rs →
    ∃ text m, post (pkgs.map buildAPIPayload) = .response 200 (some text) ∧ parse text = some (.obj m) ∧ IsBatch rs m ∧ ¬ MorePages m

/-- What holds: the results are exactly what the response lists. Missing: that the response says that there is nothing else. -/
theorem C71_results_partial (post : List ApiQuery → HttpOutcome) (pkgs : List PackageDetails) (rs : List (List Str)) :
    (∀ text m, post (pkgs.map buildAPIPayload) = .response 200 (some text) → parse text = some (.obj m) → PlainBatch m →
      (checkBatch unmarshalBatch post pkgs = .ok rs ↔ IsBatch rs m ∧ rs.length = pkgs.length)) := by
  intro text m hpost hm hp
  rw [C14_batch_ok_iff]
  constructor
  · rintro ⟨body, h1, h2, h3⟩
    rw [hpost] at h1
    cases h1
    exact ⟨(C71_response text m hm hp rs).1 h2, h3⟩
  · rintro ⟨h1, h2⟩
    exact ⟨text, hpost, (C71_response text m hm hp rs).2 h1, h2⟩

/-- A response with one of several pages. -/
def samplePage : Str := g!"{\"results\":[{\"vulns\":[{\"id\":\"A\",\"modified\":\"2020\"}],\"next_page_token\":\"p2\"}]}"

/-- The object in `samplePage`. -/
def samplePageDoc : JMembers :=
  .cons g!"results" (.arr (.cons (.obj (.cons g!"vulns" (.arr (.cons (.obj (.cons g!"id" (.str g!"A") (.cons g!"modified" (.str g!"2020") .nil))) .nil))
    (.cons g!"next_page_token" (.str g!"p2") .nil))) .nil)) .nil

theorem samplePage_parse : parse samplePage = some (.obj samplePageDoc) := by
  rw [show samplePage = render (.obj samplePageDoc) by decide +kernel]
  exact parse_render _ (by simp [samplePageDoc, JOk, JOkL, JOkM])

theorem C71_counterexample : ¬ C71_full := by
  intro h
  have hrun : checkBatch unmarshalBatch (fun _ => .response 200 (some samplePage)) [{ name := g!"m" }] = .ok [[g!"A"]] := by
    rw [C14_batch_ok_iff]
    exact ⟨samplePage, rfl, by decide +kernel, rfl⟩
  obtain ⟨text, m, h1, h2, -, h4⟩ := h (fun _ => .response 200 (some samplePage)) [{ name := g!"m" }] [[g!"A"]] hrun
  cases h1
  rw [samplePage_parse] at h2
  cases h2
  refine h4 ⟨_, g!"p2", ⟨_, List.mem_singleton.2 rfl, List.mem_singleton.2 rfl⟩, ?_, by decide⟩
  exact List.mem_cons_of_mem _ (List.mem_singleton.2 rfl)

theorem splitChar_concat (c : Char) (a b : Str) : splitChar c (a ++ c :: b) = splitChar c a ++ splitChar c b := by
  induction a with
  | nil => simp [splitChar]
  | cons d a ih =>
    rw [List.cons_append, splitChar, splitChar, ih]
    split
    · rfl
    · cases h : splitChar c a with
      | nil => exact absurd h (splitChar_ne_nil c a)
      | cons p ps => rfl

theorem cleanComps_append (rooted : Bool) (xs ps acc : List Str) (hp : ∀ p ∈ ps, Path.Plain p) :
    Path.cleanComps rooted acc (xs ++ ps) = Path.cleanComps rooted acc xs ++ ps := by
  induction xs generalizing acc with
  | nil => simp [Path.cleanComps_plain rooted ps acc hp, Path.cleanComps]
  | cons x xs ih =>
    rw [List.cons_append]
    unfold Path.cleanComps
    split
    · exact ih acc
    · split
      · split
        · split <;> exact ih _
        · split <;> exact ih _
      · exact ih _

theorem join_concat (xs ys : List Str) (hy : ys ≠ []) :
    join g!"/" (xs ++ ys) = (xs.flatMap fun x => x ++ g!"/") ++ join g!"/" ys := by
  induction xs with
  | nil => rfl
  | cons x xs ih =>
    cases h : xs ++ ys with
    | nil => simp at h; exact absurd h.2 hy
    | cons z zs =>
      rw [List.cons_append, h]
      show x ++ g!"/" ++ join g!"/" (z :: zs) = _
      rw [← h, ih]
      simp [List.flatMap_cons]

/-- An ID that is a single path component. -/
def PlainID (id : Str) : Prop := '/' ∉ id ∧ id ≠ [] ∧ id ≠ g!"." ∧ id ≠ g!".."

/-- For every base URL with an absolute path, queries go to `…/querybatch` and details of an ID are fetched from `…/vulns/ID`; different
IDs have different paths. -/
theorem C71_endpoints (base : Str) (h : ∃ r, base = '/' :: r) :
    ∃ b, bulkPath base = b ++ g!"/querybatch" ∧ ∀ id, PlainID id → vulnPath base id = b ++ g!"/vulns/" ++ id := by
  obtain ⟨r, rfl⟩ := h
  have hx : ∀ c, '/' :: (r ++ '/' :: c) = ('/' :: r) ++ '/' :: c := fun c => rfl
  generalize hcs : Path.cleanComps true [] (splitChar '/' ('/' :: r)) = cs
  have hb : ∃ b, '/' :: (cs.flatMap fun x => x ++ g!"/") = b ++ g!"/" := by
    rcases List.eq_nil_or_concat cs with rfl | ⟨l, x, rfl⟩
    · exact ⟨[], rfl⟩
    · refine ⟨'/' :: ((l.flatMap fun x => x ++ g!"/") ++ x), ?_⟩
      simp [List.flatMap_append]
  obtain ⟨b, hb⟩ := hb
  refine ⟨b, ?_, ?_⟩
  · unfold bulkPath Path.join2 Path.clean
    rw [if_pos (by simp), if_neg (by simp), if_pos (by simp)]
    have : '/' :: r ++ g!"/" ++ g!"querybatch" = ('/' :: r) ++ '/' :: g!"querybatch" := by simp
    rw [this, splitChar_concat, splitChar_of_not_mem '/' g!"querybatch" (by decide), cleanComps_append _ _ _ _ (by simp [Path.Plain]), hcs,
      join_concat _ _ (by simp), ← List.cons_append, hb]
    simp [join]
  · intro id ⟨h1, h2, h3, h4⟩
    unfold vulnPath joinPath3
    dsimp only
    rw [if_neg h2, if_neg (by simp)]
    unfold Path.clean
    rw [if_neg (by simp), if_pos (by simp)]
    have : '/' :: r ++ g!"/" ++ (g!"vulns" ++ g!"/" ++ id) = ('/' :: r) ++ '/' :: (g!"vulns" ++ '/' :: id) := by simp
    rw [this, splitChar_concat, splitChar_append '/' g!"vulns" _ (by decide), splitChar_of_not_mem '/' id h1,
      cleanComps_append _ _ _ _ (by simp [Path.Plain, h2, h3, h4]), hcs, join_concat _ _ (by simp), ← List.cons_append, hb]
    simp [join]

/-! ### Non-vacuity -/

example : bulkPath g!"/v1" = g!"/v1/querybatch" ∧ vulnPath g!"/v1/" g!"GHSA-1" = g!"/v1/vulns/GHSA-1" := by decide +kernel

/-- IDs that are not a single component lead elsewhere. -/
example : vulnPath g!"/v1" g!"../query" = g!"/v1/query" ∧ vulnPath g!"/v1" g!"./A" = vulnPath g!"/v1" g!"A" := by decide +kernel

example : batchBody [{ name := g!"m", version := g!"1", ecosystem := g!"Go" }, { name := g!"x", commit := g!"abc" }] =
    g!"{\"queries\":[{\"version\":\"1\",\"package\":{\"name\":\"m\",\"ecosystem\":\"Go\"}},{\"commit\":\"abc\",\"package\":{\"name\":\"\",\"ecosystem\":\"\"}}]}" := by
  decide +kernel

example : PlainBatch samplePageDoc ∧ IsBatch [[g!"A"]] samplePageDoc := by
  refine ⟨⟨⟨by unfold DistinctKeys; decide, by decide⟩, ?_⟩, ?_⟩
  · rintro r ⟨l, hl, hr⟩
    simp [Member, samplePageDoc, JMembers.toList] at hl
    subst hl
    simp [JList.toList] at hr
    subst hr
    refine ⟨⟨by unfold DistinctKeys; decide, by decide⟩, ?_⟩
    rintro v ⟨l, hl, hv⟩
    simp [Member, JMembers.toList] at hl
    subst hl
    simp [JList.toList] at hv
    subst hv
    exact ⟨by unfold DistinctKeys; decide, by decide⟩
  · exact .inl ⟨_, List.mem_singleton.2 rfl, .cons (.inr ⟨_, rfl, .inl ⟨_, List.mem_cons_self, .cons (.inr ⟨_, rfl, .inl List.mem_cons_self⟩) .nil⟩⟩) .nil⟩

end Osv
