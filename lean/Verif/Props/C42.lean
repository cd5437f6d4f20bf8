import Verif.Lemmas.Pip
import Verif.Props.C09
/-! # C42: requirement lines -/
namespace Osv
open Str Spec

/-- Every line yields the package described by the specification. -/
theorem C42_entry (line : Str) (d : PackageDetails) : parseRequirement line = d ↔ ReqEntry line d :=
  ⟨fun h => h ▸ Pip.parse_entry line, fun h => Pip.entry_unique (Pip.parse_entry line) h⟩

/-- The name is always a normal form. -/
theorem C42_normal_form (line : Str) : pep503 (parseRequirement line).name = (parseRequirement line).name := by
  have key : ∀ base, pep503 (pep503 base) = pep503 base := by
    intro base
    have h := C09_idempotent ⟨base, g!"PyPI"⟩
    rw [C09_normalized_name, C09_normalized_name] at h
    simpa [ecoBase] using h
  have h := Pip.parse_entry line
  generalize parseRequirement line = d at h ⊢
  cases h <;> exact key _

/-- The name is the one of an advisory exactly if both are the same PyPI project. -/
theorem C42_advisory_name (line base adv : Str) (eco : Ecosystem) (he : ecoBase eco = g!"PyPI")
    (h : (parseRequirement line).name = pep503 base) :
    Package.normalizedName ⟨adv, eco⟩ = (parseRequirement line).name ↔ SamePyPI adv base := by
  rw [C09_normalized_name, if_pos he, h]
  exact pep503_eq_iff adv base

/-- A requirement as people write it:
`name [extras] op version ; marker`, with optional white space between the parts. -/
structure ReqWritten where
  name : Str
  space1 : Str := []
  extras : Option Str := none
  space2 : Str := []
  /-- operator, white space, version -/
  pin : Option (Str × Str × Str) := none
  space3 : Str := []
  marker : Option Str := none

/-- The extras in brackets. -/
def ReqWritten.extrasText (r : ReqWritten) : Str :=
  match r.extras with
  | none => []
  | some e => '[' :: e ++ [']']

/-- The operator and version. -/
def ReqWritten.pinText (r : ReqWritten) : Str :=
  match r.pin with
  | none => []
  | some (op, sp, v) => op ++ (sp ++ v)

/-- The environment marker. -/
def ReqWritten.markerText (r : ReqWritten) : Str :=
  match r.marker with
  | none => []
  | some m => ';' :: m

/-- The whole line. -/
def ReqWritten.text (r : ReqWritten) : Str :=
  r.name ++ r.space1 ++ r.extrasText ++ r.space2 ++ (r.pinText ++ (r.space3 ++ r.markerText))

/-- Letters, digits, `-`, `_` and `.`. -/
def isNameChar (c : Char) : Bool := isWord c || c == '-' || c == '.'

/-- Operators in the order in which the code prefers them. -/
def opRank (op : Str) : Nat :=
  if op = g!"==" then 0 else if op = g!">=" then 1 else if op = g!"~=" then 2 else 3

/-- A well-formed requirement. -/
structure ReqWritten.OK (r : ReqWritten) : Prop where
  name : r.name ≠ [] ∧ r.name.all isNameChar = true
  spaces : r.space1.all (· == ' ') = true ∧ r.space2.all (· == ' ') = true ∧ r.space3.all (· == ' ') = true
  extras : ∀ e, r.extras = some e → e.all (fun c => isNameChar c || c == ',' || c == ' ') = true
  pin : ∀ op sp v, r.pin = some (op, sp, v) → op ∈ [g!"==", g!">=", g!"~=", g!"!="] ∧ sp.all (· == ' ') = true ∧
    v ≠ [] ∧ v.all (fun c => isNameChar c || c == '+' || c == '*' || c == '!') = true
  marker : ∀ m, r.marker = some m → ∃ t c, m = t ++ [c] ∧ isSpace c = false

/-- The version of the package. -/
def ReqWritten.version (r : ReqWritten) : Str :=
  match r.pin with
  | none => g!"0.0.0"
  | some (op, _, v) => if op = g!"!=" then g!"0.0.0" else v

/-- The full claim. It is false: see `C42_marker_counterexample` and `C42_extras_counterexample`. -/
def C42_full : Prop := ∀ r : ReqWritten, r.OK → parseRequirement r.text = pypi (pep503 r.name) r.version

/-- What the code can deal with: no white space before the extras; a requirement without operator ends with the name
or extras; a marker is preceded by a space and contains no operator that the code prefers to that of the requirement. -/
structure ReqWritten.Simple (r : ReqWritten) : Prop where
  extras : r.extras ≠ none → r.space1 = []
  bare : r.pin = none → r.space1 = [] ∧ r.space2 = [] ∧ r.space3 = [] ∧ r.marker = none
  marker : ∀ m op sp v, r.marker = some m → r.pin = some (op, sp, v) → (∃ t, r.space3 = ' ' :: t) ∧
    ∀ op' ∈ [g!"==", g!">=", g!"~=", g!"!="], Occurs op' m → opRank op' ≤ opRank op

namespace Pip

theorem occurs_append {y z : Char} {u v : Str} (h : Occurs [y, z] (u ++ v)) :
    Occurs [y, z] u ∨ Occurs [y, z] v ∨ ((∃ u', u = u' ++ [y]) ∧ ∃ v', v = z :: v') := by
  obtain ⟨a, b, e⟩ := h
  rw [List.append_assoc] at e
  rcases List.append_eq_append_iff.1 e with ⟨a', e1, e2⟩ | ⟨c', e1, e2⟩
  · exact Or.inr (Or.inl ⟨a', b, by rw [e2]; simp⟩)
  · -- the occurrence starts in `u`
    cases c' with
    | nil => exact Or.inr (Or.inl ⟨[], b, by simpa using e2.symm⟩)
    | cons c c' =>
      cases c' with
      | nil =>
        simp at e2
        exact Or.inr (Or.inr ⟨⟨a, by rw [e1, e2.1]⟩, ⟨b, by rw [← e2.2]⟩⟩)
      | cons d c' =>
        simp at e2
        exact Or.inl ⟨a, c', by rw [e1, e2.1, e2.2.1]; simp⟩

theorem not_occurs_of_not_mem {y z : Char} {u : Str} (h : z ∉ u) : ¬ Occurs [y, z] u := by
  rintro ⟨a, b, rfl⟩
  exact h (by simp)

theorem firstAt_op (x : Char) (a b : Str) (h : '=' ∉ a) : FirstAt [x, '='] (a ++ [x, '='] ++ b) a b := by
  refine ⟨rfl, fun a' b' e => ?_⟩
  apply Decidable.byContradiction
  intro hl
  have hl : a'.length < a.length := Nat.lt_of_not_le hl
  have h1 : (a ++ [x, '='] ++ b)[a'.length + 1]? = some '=' := by
    rw [e]
    simp
  by_cases hlt : a'.length + 1 < a.length
  · rw [List.append_assoc, List.getElem?_append_left hlt] at h1
    exact h (List.mem_of_getElem? h1)
  · have heq : a'.length + 1 = a.length := by omega
    rw [List.append_assoc, heq, List.getElem?_append_right (Nat.le_refl _)] at h1
    simp at h1
    subst h1
    have h2 : (a ++ ['=', '='] ++ b)[a'.length]? = some '=' := by rw [e]; simp
    rw [List.append_assoc, List.getElem?_append_left (by omega)] at h2
    exact h (List.mem_of_getElem? h2)

theorem name_char {c : Char} (h : isNameChar c = true) :
    c ≠ '=' ∧ c ≠ '>' ∧ c ≠ '~' ∧ c ≠ '!' ∧ c ≠ '[' ∧ c ≠ ' ' ∧ isSpace c = false := by
  refine ⟨?_, ?_, ?_, ?_, ?_, ?_, ?_⟩
  · rintro rfl; revert h; decide
  · rintro rfl; revert h; decide
  · rintro rfl; revert h; decide
  · rintro rfl; revert h; decide
  · rintro rfl; revert h; decide
  · rintro rfl; revert h; decide
  · simp [isNameChar, isWord, Char.le_def, UInt32.le_iff_toNat_le] at h
    rcases h with (h | rfl) | rfl
    · have hne : c = '_' ∨ ((48 ≤ c.toNat ∧ c.toNat ≤ 57) ∨ (65 ≤ c.toNat ∧ c.toNat ≤ 90) ∨ (97 ≤ c.toNat ∧ c.toNat ≤ 122)) := by
        rcases h with ((h | h) | h) | h
        · exact Or.inr (Or.inl h)
        · exact Or.inr (Or.inr (Or.inl h))
        · exact Or.inr (Or.inr (Or.inr h))
        · exact Or.inl h
      rcases hne with rfl | hne
      · decide
      · simp only [isSpace, Bool.or_eq_false_iff, Bool.and_eq_false_iff, decide_eq_false_iff_not, beq_eq_false_iff_ne]
        omega
    · decide
    · decide

end Pip

open Pip in
/-- Requirements in simple form are read as written. Missing for the full claim: white space before extras, markers that
follow the version directly or contain a preferred operator, and markers or white space after a bare name. -/
theorem C42_written_partial (r : ReqWritten) (h : r.OK) (hs : r.Simple) :
    parseRequirement r.text = pypi (pep503 r.name) r.version := by
  rw [C42_entry]
  have hname : ∀ c ∈ r.name, isNameChar c = true := List.all_eq_true.1 h.name.2
  have hbr : '[' ∉ r.name := fun hm => (name_char (hname _ hm)).2.2.2.2.1 rfl
  have hblank : ∀ s : Str, s.all (· == ' ') = true → Blank s := by
    intro s hs c hc
    have := List.all_eq_true.1 hs c hc
    simp at this
    rw [this]; decide
  have hhead : ∀ c ∈ r.name.head?, isSpace c = false :=
    fun c hc => (name_char (hname c (List.mem_of_head? hc))).2.2.2.2.2.2
  have hlast : ∀ c ∈ r.name.getLast?, isSpace c = false :=
    fun c hc => (name_char (hname c (List.mem_of_getLast? hc))).2.2.2.2.2.2
  -- the text before the operator
  have hA : ∀ c ∈ r.name ++ r.space1 ++ r.extrasText ++ r.space2, c ≠ '=' ∧ c ≠ '>' ∧ c ≠ '~' ∧ c ≠ '!' := by
    intro c hc
    simp only [List.mem_append] at hc
    have sp : ∀ s : Str, s.all (· == ' ') = true → c ∈ s → c ≠ '=' ∧ c ≠ '>' ∧ c ≠ '~' ∧ c ≠ '!' := by
      intro s hs hc
      have := List.all_eq_true.1 hs c hc
      simp at this
      subst this; decide
    rcases hc with ((hc | hc) | hc) | hc
    · have := name_char (hname c hc); exact ⟨this.1, this.2.1, this.2.2.1, this.2.2.2.1⟩
    · exact sp _ h.spaces.1 hc
    · unfold ReqWritten.extrasText at hc
      cases he : r.extras with
      | none => rw [he] at hc; cases hc
      | some e =>
        rw [he] at hc
        simp at hc
        rcases hc with rfl | hc | rfl
        · decide
        · have := List.all_eq_true.1 (h.extras e he) c hc
          simp at this
          rcases this with (hc | rfl) | rfl
          · have := name_char hc; exact ⟨this.1, this.2.1, this.2.2.1, this.2.2.2.1⟩
          · decide
          · decide
        · decide
    · exact sp _ h.spaces.2.1 hc
  have hbase : ∀ n, n = r.name ++ r.extrasText → Before '[' n r.name := by
    rintro n rfl
    refine ⟨hbr, ?_⟩
    unfold ReqWritten.extrasText
    cases r.extras with
    | none => left; simp
    | some e => right; exact ⟨e ++ [']'], by simp⟩
  have htrim : Trimmed (r.name ++ r.space1 ++ r.extrasText ++ r.space2) (r.name ++ r.extrasText) := by
    cases he : r.extras with
    | none =>
      refine ⟨[], r.space1 ++ r.space2, ?_, by simp [Blank], ?_, ?_, ?_⟩
      · simp [ReqWritten.extrasText, he]
      · intro c hc
        rcases List.mem_append.1 hc with hc | hc
        · exact hblank _ h.spaces.1 c hc
        · exact hblank _ h.spaces.2.1 c hc
      · simpa [ReqWritten.extrasText, he] using hhead
      · simpa [ReqWritten.extrasText, he] using hlast
    | some e =>
      refine ⟨[], r.space2, ?_, by simp [Blank], hblank _ h.spaces.2.1, ?_, ?_⟩
      · rw [hs.extras (by rw [he]; simp)]; simp
      · intro c hc
        rw [List.head?_append] at hc
        cases hn : r.name with
        | nil => exact absurd hn h.name.1
        | cons d n => rw [hn] at hc; simp at hc; subst hc; exact hhead d (by rw [hn]; rfl)
      · intro c hc
        simp only [ReqWritten.extrasText, he] at hc
        rw [← List.append_assoc, List.getLast?_concat] at hc
        simp at hc
        rw [← hc]; decide
  unfold ReqWritten.version
  cases hp : r.pin with
  | none =>
    dsimp only
    obtain ⟨b1, b2, b3, b4⟩ := hs.bare hp
    have et : r.text = r.name ++ r.extrasText := by
      simp [ReqWritten.text, ReqWritten.pinText, ReqWritten.markerText, hp, b1, b2, b3, b4]
    refine .bare ?_ (hbase _ et)
    intro op hop
    have hno : '=' ∉ r.text := by
      intro hm
      rw [et] at hm
      refine (hA '=' ?_).1 rfl
      rw [b1, b2]; simpa using hm
    cases hop <;> exact not_occurs_of_not_mem hno (by assumption)
  | some x =>
    obtain ⟨op, sp, v⟩ := x
    dsimp only
    obtain ⟨hop, hsp, hv, hvc⟩ := h.pin op sp v hp
    obtain ⟨x, rfl, hx⟩ : ∃ x, op = [x, '='] ∧ (x = '=' ∨ x = '>' ∨ x = '~' ∨ x = '!') := by
      simp at hop
      rcases hop with rfl | rfl | rfl | rfl
      · exact ⟨'=', rfl, Or.inl rfl⟩
      · exact ⟨'>', rfl, Or.inr (Or.inl rfl)⟩
      · exact ⟨'~', rfl, Or.inr (Or.inr (Or.inl rfl))⟩
      · exact ⟨'!', rfl, Or.inr (Or.inr (Or.inr rfl))⟩
    have et : r.text = r.name ++ r.space1 ++ r.extrasText ++ r.space2 ++ [x, '='] ++
        (sp ++ v ++ r.space3 ++ r.markerText) := by
      simp [ReqWritten.text, ReqWritten.pinText, hp]
    have hfirst := firstAt_op x _ (sp ++ v ++ r.space3 ++ r.markerText) (fun hm => (hA _ hm).1 rfl)
    rw [← et] at hfirst
    have hP : '=' ∉ sp ++ v ++ r.space3 := by
      intro hm
      simp only [List.mem_append] at hm
      rcases hm with (hm | hm) | hm
      · have := List.all_eq_true.1 hsp _ hm; simp at this
      · have := List.all_eq_true.1 hvc _ hm; revert this; decide
      · have := List.all_eq_true.1 h.spaces.2.2 _ hm; simp at this
    -- other operators occur only in the marker
    have hocc : ∀ y, (y = '>' ∨ y = '~' ∨ y = '!') → Occurs [y, '='] r.text → y = x ∨
        opRank [y, '='] ≤ opRank [x, '='] := by
      intro y hy ho
      have hye : y ≠ '=' := by rcases hy with rfl | rfl | rfl <;> decide
      have hys : y ≠ ';' := by rcases hy with rfl | rfl | rfl <;> decide
      rw [et, List.append_assoc] at ho
      rcases occurs_append ho with ho | ho | ⟨⟨u, eu⟩, _⟩
      · exact absurd ho (not_occurs_of_not_mem fun hm => (hA _ hm).1 rfl)
      · rcases occurs_append ho with ho | ho | ⟨⟨u, eu⟩, _⟩
        · obtain ⟨a, b, e⟩ := ho
          have hl := congrArg List.length e
          simp at hl
          have : a = [] := List.length_eq_zero_iff.1 (by omega)
          subst this
          simp at e
          exact Or.inl e.1.symm
        · rcases occurs_append ho with ho | ho | ⟨_, w, ew⟩
          · exact absurd ho (not_occurs_of_not_mem hP)
          · cases hm : r.marker with
            | none => simp [ReqWritten.markerText, hm] at ho; obtain ⟨a, b, e⟩ := ho; simp at e
            | some m =>
              simp only [ReqWritten.markerText, hm] at ho
              rcases occurs_append (u := [';']) (v := m) ho with ho | ho | ⟨⟨u, eu⟩, _⟩
              · exact absurd ho (not_occurs_of_not_mem (by decide))
              · refine Or.inr ((hs.marker m _ sp v hm hp).2 _ ?_ ho)
                rcases hy with rfl | rfl | rfl <;> simp
              · have := congrArg List.getLast? eu
                simp at this
                exact absurd this.symm hys
          · cases hm : r.marker with
            | none => simp [ReqWritten.markerText, hm] at ew
            | some m => simp [ReqWritten.markerText, hm] at ew
        · have := congrArg List.getLast? eu
          simp at this
          exact absurd this.symm hye
      · have := hA y (by rw [eu]; simp)
        rcases hy with rfl | rfl | rfl
        · exact absurd rfl this.2.1
        · exact absurd rfl this.2.2.1
        · exact absurd rfl this.2.2.2
    have hself : Occurs [x, '='] r.text := ⟨_, _, et⟩
    have hreq : ReqOp r.text [x, '='] := by
      rcases hx with rfl | rfl | rfl | rfl
      · refine .eq (fun ho => ?_) (fun ho => ?_) (fun ho => ?_) hself
        · have := hocc '!' (by simp) ho; revert this; decide
        · have := hocc '~' (by simp) ho; revert this; decide
        · have := hocc '>' (by simp) ho; revert this; decide
      · refine .ge (fun ho => ?_) (fun ho => ?_) hself
        · have := hocc '!' (by simp) ho; revert this; decide
        · have := hocc '~' (by simp) ho; revert this; decide
      · refine .compatible (fun ho => ?_) hself
        have := hocc '!' (by simp) ho; revert this; decide
      · exact .ne hself
    by_cases hne : x = '!'
    · subst hne
      rw [if_pos rfl]
      exact .excluded hreq hfirst htrim (hbase _ rfl)
    · rw [if_neg (by simpa using hne)]
      have hvs : ∀ c ∈ v, isSpace c = false ∧ c ≠ ' ' := by
        intro c hc
        have := List.all_eq_true.1 hvc c hc
        simp at this
        rcases this with ((hc | rfl) | rfl) | rfl
        · have := name_char hc; exact ⟨this.2.2.2.2.2.2, this.2.2.2.2.2.1⟩
        · decide
        · decide
        · decide
      have hvh : ∀ c ∈ v.head?, isSpace c = false := fun c hc => (hvs c (List.mem_of_head? hc)).1
      have hvl : ∀ c ∈ v.getLast?, isSpace c = false := fun c hc => (hvs c (List.mem_of_getLast? hc)).1
      have hvns : ' ' ∉ v := fun hm => (hvs _ hm).2 rfl
      cases hm : r.marker with
      | none =>
        refine .pinned (w := v) hreq (by simpa using hne) hfirst htrim (hbase _ rfl)
          ⟨sp, r.space3, by simp [ReqWritten.markerText, hm], hblank _ hsp, hblank _ h.spaces.2.2, hvh, hvl⟩
          ⟨hvns, Or.inl rfl⟩
      | some m =>
        obtain ⟨⟨t, ht⟩, _⟩ := hs.marker m _ sp v hm hp
        obtain ⟨m', c, rfl, hc⟩ := h.marker m hm
        refine .pinned (w := v ++ r.space3 ++ r.markerText) hreq (by simpa using hne) hfirst htrim (hbase _ rfl)
          ⟨sp, [], by simp, hblank _ hsp, by simp [Blank], ?_, ?_⟩ ⟨hvns, Or.inr ⟨t ++ r.markerText, by rw [ht]; simp⟩⟩
        · cases v with
          | nil => exact absurd rfl hv
          | cons d v => simpa using hvh
        · intro d hd
          have e : v ++ r.space3 ++ r.markerText = (v ++ r.space3 ++ ';' :: m') ++ [c] := by
            simp [ReqWritten.markerText, hm]
          rw [e, List.getLast?_concat] at hd
          simp at hd
          rw [← hd]; exact hc

/-- `foo==1.0; python_version >= "3.6"` -/
def reqMarkerSample : ReqWritten := { name := g!"foo", pin := some (g!"==", [], g!"1.0"), marker := some g!" python_version >= \"3.6\"" }

/-- A marker with another operator is taken for the requirement: the full claim is false. -/
theorem C42_marker_counterexample : ¬ C42_full ∧
    parseRequirement reqMarkerSample.text = pypi g!"foo==1-0; python-version" g!"\"3.6\"" := by
  have h2 : parseRequirement reqMarkerSample.text = pypi g!"foo==1-0; python-version" g!"\"3.6\"" := by decide +kernel
  refine ⟨fun h => ?_, h2⟩
  have h1 := h reqMarkerSample
    ⟨by decide, by decide, by simp [reqMarkerSample], by
      intro op sp v e
      simp [reqMarkerSample] at e
      obtain ⟨rfl, rfl, rfl⟩ := e
      decide, by
      intro m e
      simp [reqMarkerSample] at e
      subst e
      exact ⟨g!" python_version >= \"3.6", '"', rfl, by decide⟩⟩
  rw [h2] at h1
  exact absurd h1 (by decide +kernel)

/-- `foo [x]==1.0` -/
def reqExtrasSample : ReqWritten := { name := g!"foo", space1 := g!" ", extras := some g!"x", pin := some (g!"==", [], g!"1.0") }

/-- White space before the extras ends up in the name, which then matches no advisory. -/
theorem C42_extras_counterexample : reqExtrasSample.OK ∧ parseRequirement reqExtrasSample.text = pypi g!"foo " g!"1.0" := by
  refine ⟨⟨by decide, by decide, ?_, ?_, by simp [reqExtrasSample]⟩, by decide +kernel⟩
  · intro e he
    simp [reqExtrasSample] at he
    subst he; decide
  · intro op sp v e
    simp [reqExtrasSample] at e
    obtain ⟨rfl, rfl, rfl⟩ := e
    decide

/-- Other operators become part of the name. -/
theorem C42_other_operators : parseRequirement g!"foo<2" = pypi g!"foo<2" g!"0.0.0" ∧
    parseRequirement g!"foo>=1.0,<2" = pypi g!"foo" g!"1.0,<2" := by
  constructor <;> decide +kernel

/-- `Foo_Bar[x] >= 1.0 ; sys_platform == "linux"` -/
def reqSimpleSample : ReqWritten where
  name := g!"Foo_Bar"
  extras := some g!"x"
  space2 := g!" "
  pin := some (g!">=", g!" ", g!"1.0")
  space3 := g!" "
  marker := some g!" sys_platform == \"linux\""

/-- The hypotheses of `C42_written_partial` can be met. -/
example : reqSimpleSample.OK ∧ reqSimpleSample.Simple ∧
    parseRequirement reqSimpleSample.text = pypi g!"foo-bar" g!"1.0" := by
  refine ⟨⟨by decide, by decide, ?_, ?_, ?_⟩, ⟨?_, ?_, ?_⟩, by decide +kernel⟩
  · intro e he
    simp [reqSimpleSample] at he
    subst he; decide
  · intro op sp v e
    simp [reqSimpleSample] at e
    obtain ⟨rfl, rfl, rfl⟩ := e
    decide
  · intro m e
    simp [reqSimpleSample] at e
    subst e
    exact ⟨g!" sys_platform == \"linux", '"', rfl, by decide⟩
  · intro _; rfl
  · intro e; simp [reqSimpleSample] at e
  · intro m op sp v e1 e2
    simp [reqSimpleSample] at e1 e2
    obtain ⟨rfl, rfl, rfl⟩ := e2
    subst e1
    refine ⟨⟨[], rfl⟩, ?_⟩
    intro op' hop ho
    simp only [← Pip.contains_occurs] at ho
    simp at hop
    rcases hop with rfl | rfl | rfl | rfl <;> revert ho <;> decide

end Osv
