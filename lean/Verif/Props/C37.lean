import Verif.Model.Csv
import Verif.Lemmas.Merge
/-! # C37 CSV records -/
namespace Osv

/-- The package of a record: fields `ecosystem, compareAs, name, version or commit`. -/
def csvPackage (ecosystem compareAs name field : Str) : PackageDetails where
  name := name
  version := if ecosystem = [] then [] else field
  commit := if ecosystem = [] then field else []
  ecosystem := ecosystem
  compareAs := if compareAs = [] then ecosystem else compareAs

/-- A record is accepted exactly if it has at least four fields, a name, and a commit if it has no ecosystem; the package
has exactly these fields. -/
theorem C37_record (fields : List Str) (p : PackageDetails) :
    fromCSVRecord fields = .ok p ↔ ∃ e c n v rest, fields = e :: c :: n :: v :: rest ∧ n ≠ [] ∧ (e = [] → v ≠ []) ∧
      p = csvPackage e c n v := by
  constructor
  · intro h
    match fields with
    | [] => cases h
    | [_] => cases h
    | [_, _] => cases h
    | [_, _, _] => cases h
    | e :: c :: n :: v :: rest =>
      refine ⟨e, c, n, v, rest, rfl, ?_⟩
      unfold fromCSVRecord at h
      dsimp only at h
      unfold csvPackage
      split at h
      · rename_i he
        split at h
        · cases h
        · rename_i hv
          split at h
          · cases h
          · rename_i hn
            cases h
            exact ⟨hn, fun _ => hv, by simp [he]⟩
      · rename_i he
        split at h
        · cases h
        · rename_i hn
          cases h
          exact ⟨hn, fun h => absurd h he, by simp [he]⟩
  · rintro ⟨e, c, n, v, rest, rfl, hn, hv, rfl⟩
    unfold fromCSVRecord csvPackage
    dsimp only
    by_cases he : e = []
    · rw [if_pos he, if_neg (hv he), if_neg hn]; simp [he]
    · rw [if_neg he, if_neg hn]; simp [he]

theorem csvLoop_spec (records : List (List Str)) (ok : Bool) (i : Nat) (acc : List PackageDetails) :
    (∀ ps : List PackageDetails, csvLoop i acc ok records = (ps, none) ↔
      ok = true ∧ ∃ qs, ps = acc ++ qs ∧ records.map fromCSVRecord = qs.map .ok) ∧
    (∀ n e, (csvLoop i acc ok records).2 = some (.row n e) ↔
      ∃ k, n = i + k + 1 ∧ records[k]?.map fromCSVRecord = some (.error e) ∧
        ∀ j, j < k → ∃ p, records[j]?.map fromCSVRecord = some (.ok p)) ∧
    ((csvLoop i acc ok records).2 = some .reader ↔ ok = false ∧ ∀ r ∈ records, ∃ p, fromCSVRecord r = .ok p) := by
  induction records generalizing i acc with
  | nil =>
    unfold csvLoop
    refine ⟨?_, ?_, ?_⟩
    · intro ps
      cases ok with
      | false => simp
      | true =>
        simp only [if_true, Prod.mk.injEq, and_true, true_and, List.map_nil]
        constructor
        · rintro rfl; exact ⟨[], by simp, rfl⟩
        · rintro ⟨qs, rfl, h⟩
          rw [List.map_eq_nil_iff.1 h.symm]; simp
    · intro n e; cases ok <;> simp
    · cases ok <;> simp
  | cons r rs ih =>
    unfold csvLoop
    cases hr : fromCSVRecord r with
    | error e' =>
      dsimp only
      refine ⟨?_, ?_, ?_⟩
      · intro ps
        constructor
        · intro h; cases (Prod.mk.inj h).2
        · rintro ⟨-, qs, -, h⟩
          cases qs with
          | nil => cases h
          | cons q qs => rw [List.map_cons, hr] at h; cases h
      · intro n e
        constructor
        · intro h
          cases h
          exact ⟨0, rfl, by simp [hr], by intro j hj; omega⟩
        · rintro ⟨k, rfl, h1, h2⟩
          cases k with
          | zero => simp [hr] at h1; rw [h1]
          | succ k =>
            obtain ⟨p, hp⟩ := h2 0 (by omega)
            simp [hr] at hp
      · constructor
        · intro h; cases h
        · rintro ⟨-, h⟩
          obtain ⟨p, hp⟩ := h r (by simp)
          rw [hr] at hp; cases hp
    | ok d =>
      dsimp only
      obtain ⟨h1, h2, h3⟩ := ih (i + 1) (acc ++ [d])
      refine ⟨?_, ?_, ?_⟩
      · intro ps
        rw [h1]
        refine and_congr_right fun _ => ?_
        constructor
        · rintro ⟨qs, rfl, h⟩
          exact ⟨d :: qs, by simp, by simp [hr, h]⟩
        · rintro ⟨qs, rfl, h⟩
          cases qs with
          | nil => cases h
          | cons q qs =>
            rw [List.map_cons, List.map_cons, hr] at h
            injection h with ha hb
            injection ha with ha
            subst ha
            exact ⟨qs, by simp, hb⟩
      · intro n e
        rw [h2]
        constructor
        · rintro ⟨k, rfl, ha, hb⟩
          refine ⟨k + 1, by omega, by simpa using ha, ?_⟩
          intro j hj
          cases j with
          | zero => exact ⟨d, by simp [hr]⟩
          | succ j => simpa using hb j (by omega)
        · rintro ⟨k, rfl, ha, hb⟩
          cases k with
          | zero => simp [hr] at ha
          | succ k =>
            refine ⟨k, by omega, by simpa using ha, ?_⟩
            intro j hj
            simpa using hb (j + 1) (by omega)
      · rw [h3]
        refine and_congr_right fun _ => ?_
        constructor
        · intro h x hx
          rcases List.mem_cons.1 hx with rfl | hx
          · exact ⟨d, hr⟩
          · exact h x hx
        · intro h x hx; exact h x (by simp [hx])

/-- The input is accepted exactly if the reader reaches the end and every record is accepted; the packages are those of
the records. -/
theorem C37_accepted (S : Sorter) (records : List (List Str)) (ok : Bool) :
    ((fromCSV S records ok).2 = none ↔ ok = true ∧ ∀ r ∈ records, ∃ p, fromCSVRecord r = .ok p) ∧
    ∀ ps, fromCSV S records ok = (ps, none) → ∃ qs, ps.Perm qs ∧ records.map fromCSVRecord = qs.map .ok := by
  obtain ⟨h1, h2, h3⟩ := csvLoop_spec records ok 0 []
  unfold fromCSV
  rcases hc : csvLoop 0 [] ok records with ⟨ps, e⟩
  rw [hc] at h2 h3
  simp only [hc] at h1
  cases e with
  | none =>
    dsimp only
    obtain ⟨hok, qs, hps, hm⟩ := (h1 ps).1 rfl
    refine ⟨⟨fun _ => ⟨hok, ?_⟩, fun _ => rfl⟩, ?_⟩
    · intro r hr
      have : fromCSVRecord r ∈ qs.map (Except.ok (ε := CsvErr)) := hm ▸ List.mem_map.2 ⟨r, hr, rfl⟩
      obtain ⟨q, _, hq⟩ := List.mem_map.1 this
      exact ⟨q, hq.symm⟩
    · intro ps' h
      cases (Prod.mk.inj h).1
      rw [hps, List.nil_append]
      exact ⟨qs, S.perm _ _, hm⟩
  | some e =>
    dsimp only
    refine ⟨⟨fun h => (by cases h), ?_⟩, fun _ h => (by cases (Prod.mk.inj h).2)⟩
    rintro ⟨rfl, h⟩
    exfalso
    cases e with
    | reader => exact absurd (h3.1 rfl).1 (by simp)
    | row n e =>
      obtain ⟨k, -, ha, -⟩ := (h2 n e).1 rfl
      cases hk : records[k]? with
      | none => rw [hk] at ha; cases ha
      | some r =>
        rw [hk] at ha
        obtain ⟨p, hp⟩ := h r (List.mem_of_getElem? hk)
        simp [hp] at ha

/-- An error for a row names the first bad row, counted from 1; every row before it is fine. -/
theorem C37_row (S : Sorter) (records : List (List Str)) (ok : Bool) (n : Nat) (e : CsvErr) :
    (fromCSV S records ok).2 = some (.row n e) ↔ ∃ k, n = k + 1 ∧ records[k]?.map fromCSVRecord = some (.error e) ∧
      ∀ j, j < k → ∃ p, records[j]?.map fromCSVRecord = some (.ok p) := by
  obtain ⟨h1, h2, h3⟩ := csvLoop_spec records ok 0 []
  have := h2 n e
  simp only [Nat.zero_add] at this
  rw [← this]
  unfold fromCSV
  rcases csvLoop 0 [] ok records with ⟨ps, _ | e⟩ <;> simp

/-! ### Non-vacuity -/

example : fromCSVRecord [g!"npm", [], g!"lodash", g!"1.0.0", g!"x"] =
    .ok { name := g!"lodash", version := g!"1.0.0", ecosystem := g!"npm", compareAs := g!"npm" } := rfl
example : fromCSVRecord [[], g!"npm", g!"lodash", g!"abc"] =
    .ok { name := g!"lodash", version := [], commit := g!"abc", ecosystem := [], compareAs := g!"npm" } := rfl
example : (fromCSV Sorter.insertion [[g!"npm", [], g!"a", g!"1"], [g!"npm", [], [], g!"1"], []] true).2 =
    some (.row 2 .missingPackage) := by decide

end Osv
