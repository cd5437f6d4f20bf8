import Verif.Lemmas.CsvText
import Verif.Go.JsonEncode
import Verif.Props.C37
/-!
# C73 CSV text

`--parse-as csv-file` and `--parse-as csv-row` read records from text. A text is accepted exactly if it is written as CSV.
-/
namespace Osv
open Str Spec

theorem Csv.read (text : Str) (rs : List (List Str)) :
    csvRecords text = (rs, true) ↔ CsvDoc rs (csvNormal text) ∧ SameLength rs := by
  unfold csvRecords
  constructor
  · intro h
    obtain ⟨h1, k, -, h2⟩ := Csv.all_inv _ none _ (by omega) h
    exact ⟨h1, k, h2⟩
  · rintro ⟨h1, k, h2⟩
    exact Csv.all_read h1 none k (by simp) h2 _ (by omega)

/-- A text is read as these records without error exactly if, with uniform line ends, it is how they are written and all have the same
number of fields. -/
theorem C73_read (text : Str) (rs : List (List Str)) :
    csvRecords text = (rs, true) ↔ ∃ u, LineEnds text u ∧ CsvDoc rs u ∧ SameLength rs := by
  rw [Csv.read]
  constructor
  · rintro ⟨h1, h2⟩
    exact ⟨_, (Csv.normal_iff _ _).1 rfl, h1, h2⟩
  · rintro ⟨u, h, h1, h2⟩
    rw [(Csv.normal_iff _ _).2 h]
    exact ⟨h1, h2⟩

/-- Texts without carriage returns are not changed, and it makes no difference whether lines end with `\n` or `\r\n`. -/
theorem C73_line_ends (t : Str) (h : '\r' ∉ t) : LineEnds t t ∧ LineEnds (crlf t) t ∧ csvRecords (crlf t) = csvRecords t := by
  refine ⟨(Csv.normal_iff _ _).1 (Csv.normal_id t h), (Csv.normal_iff _ _).1 (Csv.normal_crlf t h), ?_⟩
  unfold csvRecords
  rw [Csv.normal_id t h, Csv.normal_crlf t h]

/-- A text is the written form of at most one list of records. -/
theorem C73_unambiguous {t : Str} (hr : '\r' ∉ t) {rs rs' : List (List Str)} (h : CsvDoc rs t) (h' : CsvDoc rs' t)
    (hl : SameLength rs) (hl' : SameLength rs') : rs = rs' := by
  have e := Csv.normal_id t hr
  have h1 := (Csv.read t rs).2 ⟨by rw [e]; exact h, hl⟩
  have h2 := (Csv.read t rs').2 ⟨by rw [e]; exact h', hl'⟩
  rw [h1] at h2
  exact (Prod.mk.inj h2).1

/-- Records on lines of their own are a document. -/
theorem Csv.join_doc (rs : List (List Str)) (rows : List Str) (h : Each (fun r t => RecordText r t ∧ t ≠ []) rs rows) :
    CsvDoc rs (join g!"\n" rows) := by
  induction h with
  | nil => exact .empty
  | @cons r t rs rows h ht ih =>
    cases ht with
    | nil => exact .last h.1 h.2
    | cons h' ht' => exact .line h.1 h.2 ih

theorem Csv.rows_read (rs : List (List Str)) (rows : List Str)
    (h : Each (fun r t => RecordText r t ∧ t ≠ []) rs rows) (hl : SameLength rs) (hr : ∀ t ∈ rows, '\r' ∉ t) :
    csvRecords (join g!"\n" rows) = (rs, true) := by
  have hj : '\r' ∉ join g!"\n" rows := by
    clear h
    induction rows with
    | nil => simp [join]
    | cons t rows ih =>
      have h1 := hr t (by simp)
      have h2 := ih fun t h => hr t (List.mem_cons_of_mem _ h)
      cases rows with
      | nil => exact h1
      | cons u rows =>
        rw [join]
        intro hm
        rcases List.mem_append.1 hm with hm | hm
        · rcases List.mem_append.1 hm with hm | hm
          · exact h1 hm
          · simp at hm
        · exact h2 hm
  exact (Csv.read _ _).2 ⟨by rw [Csv.normal_id _ hj]; exact Csv.join_doc rs rows h, hl⟩

/-- If every argument is how a record is written, then `--parse-as csv-row` reads exactly one record per argument, in this order. -/
theorem C73_rows (env : Env) (file : Str → Option Str) (rs : List (List Str)) (rows : List Str)
    (h : Each (fun r t => RecordText r t ∧ t ≠ []) rs rows) (hl : SameLength rs) (hr : ∀ t ∈ rows, '\r' ∉ t) :
    (env.withCsv file).csvRows rows = (rs, true) := Csv.rows_read rs rows h hl hr

/-- From text to packages: a text is accepted exactly if it is how records of packages are written. -/
theorem C73_accepted (S : Sorter) (text : Str) :
    (fromCSV S (csvRecords text).1 (csvRecords text).2).2 = none ↔ ∃ rs u, LineEnds text u ∧ CsvDoc rs u ∧ SameLength rs ∧
      ∀ r ∈ rs, ∃ e c n v rest, r = e :: c :: n :: v :: rest ∧ n ≠ [] ∧ (e = [] → v ≠ []) := by
  rw [(C37_accepted S (csvRecords text).1 (csvRecords text).2).1]
  constructor
  · rintro ⟨hok, hall⟩
    obtain ⟨hd, hl⟩ := (Csv.read text (csvRecords text).1).1 (by rw [← hok])
    refine ⟨_, _, (Csv.normal_iff _ _).1 rfl, hd, hl, fun r hr => ?_⟩
    obtain ⟨p, hp⟩ := hall r hr
    obtain ⟨e, c, n, v, rest, h1, h2, h3, -⟩ := (C37_record r p).1 hp
    exact ⟨e, c, n, v, rest, h1, h2, h3⟩
  · rintro ⟨rs, u, hu, hd, hl, hall⟩
    obtain rfl := (Csv.normal_iff _ _).2 hu
    rw [(Csv.read text rs).2 ⟨hd, hl⟩]
    refine ⟨rfl, fun r hr => ?_⟩
    obtain ⟨e, c, n, v, rest, h1, h2, h3⟩ := hall r hr
    exact ⟨_, (C37_record r _).2 ⟨e, c, n, v, rest, h1, h2, h3, rfl⟩⟩

/-- Then the packages are those of the records: none is lost and none is added. -/
theorem C73_packages (S : Sorter) (text : Str) (ps : List PackageDetails)
    (h : fromCSV S (csvRecords text).1 (csvRecords text).2 = (ps, none)) :
    ∃ rs qs u, LineEnds text u ∧ CsvDoc rs u ∧ SameLength rs ∧ ps.Perm qs ∧
      Each (fun (r : List Str) p => ∃ e c n v rest, r = e :: c :: n :: v :: rest ∧ n ≠ [] ∧ (e = [] → v ≠ []) ∧
        p = csvPackage e c n v) rs qs := by
  obtain ⟨h1, h2⟩ := C37_accepted S (csvRecords text).1 (csvRecords text).2
  obtain ⟨hok, hall⟩ := h1.1 (by rw [h])
  obtain ⟨qs, hp, hm⟩ := h2 ps h
  have hrd : csvRecords text = ((csvRecords text).1, true) := by rw [← hok]
  obtain ⟨hd, hl⟩ := (Csv.read _ _).1 hrd
  refine ⟨_, qs, _, (Csv.normal_iff _ _).1 rfl, hd, hl, hp, ?_⟩
  generalize (csvRecords text).1 = rs at hm
  clear h h1 h2 hall hrd hd hl hp hok
  induction rs generalizing qs with
  | nil =>
    cases qs with
    | nil => exact .nil
    | cons => cases hm
  | cons r rs ih =>
    cases qs with
    | nil => cases hm
    | cons q qs =>
      simp only [List.map_cons, List.cons.injEq] at hm
      exact .cons ((C37_record r q).1 hm.1) (ih qs hm.2)

/-- A record with all fields in quotes. -/
def quotedRow (r : List Str) : Str := join g!"," (r.map fun f => g!"\"" ++ doubled f ++ g!"\"")

/-- Every list of records that have the same number of fields, and at least one, can be written so that it is read back, whatever
the fields contain, except for carriage returns. -/
theorem C73_round_trip (rs : List (List Str)) (hne : ∀ r ∈ rs, r ≠ []) (hl : SameLength rs) (hr : ∀ r ∈ rs, ∀ f ∈ r, '\r' ∉ f) :
    csvRecords (join g!"\n" (rs.map quotedRow)) = (rs, true) := by
  have hrow : ∀ r : List Str, r ≠ [] → RecordText r (quotedRow r) ∧ quotedRow r ≠ [] := by
    intro r hr
    induction r with
    | nil => exact absurd rfl hr
    | cons f r ih =>
      cases r with
      | nil => exact ⟨.one (.quoted f), by simp [quotedRow, join]⟩
      | cons g r => exact ⟨.more (.quoted f) (ih (by simp)).1, by simp [quotedRow, join]⟩
  have hdoub : ∀ f : Str, '\r' ∉ f → '\r' ∉ doubled f := by
    intro f hf hm
    obtain ⟨c, hc, hm⟩ := List.mem_flatMap.1 hm
    split at hm
    · simp at hm
    · simp only [List.mem_cons, List.not_mem_nil, or_false] at hm
      exact hf (hm ▸ hc)
  have hcr : ∀ r : List Str, (∀ f ∈ r, '\r' ∉ f) → '\r' ∉ quotedRow r := by
    intro r hr
    induction r with
    | nil => simp [quotedRow, join]
    | cons f r ih =>
      have h1 := hdoub f (hr f (by simp))
      have h2 := ih fun f h => hr f (List.mem_cons_of_mem _ h)
      cases r with
      | nil => simp [quotedRow, join, h1]
      | cons g r =>
        have e : quotedRow (f :: g :: r) = g!"\"" ++ doubled f ++ g!"\"" ++ g!"," ++ quotedRow (g :: r) := rfl
        rw [e]
        simp [h1, h2]
  refine Csv.rows_read rs (rs.map quotedRow) ?_ hl ?_
  · clear hl
    induction rs with
    | nil => exact .nil
    | cons r rs ih =>
      exact .cons (hrow r (hne r (by simp))) (ih (fun r h => hne r (List.mem_cons_of_mem _ h)) fun r h => hr r (List.mem_cons_of_mem _ h))
  · intro t ht
    obtain ⟨r, h, rfl⟩ := List.mem_map.1 ht
    exact hcr r (hr r h)

/-! ### Non-vacuity -/

example : Each (fun r t => RecordText r t ∧ t ≠ []) [[g!"npm", [], g!"a,b", g!"1"], [g!"Go", [], g!"c", g!"2"]]
    [g!"npm,,\"a,b\",1", g!"Go,,c,2"] := by
  refine .cons ⟨?_, by decide⟩ (.cons ⟨?_, by decide⟩ .nil)
  · exact .more (t := g!"npm") (.plain _ (by decide) (by decide) (by decide)) (.more (t := []) (.plain _ (by decide) (by decide) (by decide))
      (.more (t := g!"\"a,b\"") (.quoted g!"a,b") (.one (.plain _ (by decide) (by decide) (by decide)))))
  · exact .more (t := g!"Go") (.plain _ (by decide) (by decide) (by decide)) (.more (t := []) (.plain _ (by decide) (by decide) (by decide))
      (.more (t := g!"c") (.plain _ (by decide) (by decide) (by decide)) (.one (.plain _ (by decide) (by decide) (by decide)))))

/-- The condition of `C73_rows` is needed: arguments with quotes that are not balanced can be read as one record together. -/
example : csvRecords (join g!"\n" [g!"npm,,a,\"1", g!"npm,,b,2\""]) = ([[g!"npm", [], g!"a", g!"1\nnpm,,b,2"]], true) := by decide +kernel

/-- Carriage returns inside of a field may be lost. -/
example : csvRecords (join g!"\n" ([[g!"a\r\nb"]].map quotedRow)) = ([[g!"a\nb"]], true) := by decide +kernel

end Osv
