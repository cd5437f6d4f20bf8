import Verif.Model.CsvText
import Verif.Spec.CsvText
/-! # The CSV reader reads what is written -/
namespace Osv.Csv
open Osv Str Spec

/-- The text behind a field. -/
def After : CsvAfter → Str → Prop
  | .field r, s => s = ',' :: r
  | .record r, s => s = '\n' :: r ∨ (s = [] ∧ r = [])

theorem doubled_nil : doubled [] = [] := rfl
theorem doubled_quote (f : Str) : doubled ('"' :: f) = '"' :: '"' :: doubled f := by simp [doubled]
theorem doubled_cons {c : Char} (h : c ≠ '"') (f : Str) : doubled (c :: f) = c :: doubled f := by simp [doubled, h]

theorem csvPlain_cons (acc : Str) {c : Char} (r : Str) (h1 : c ≠ ',') (h2 : c ≠ '\n') (h3 : c ≠ '"') :
    csvPlain acc (c :: r) = csvPlain (acc ++ [c]) r := by
  conv => lhs; unfold csvPlain
  split <;> simp_all

theorem csvQuoted_cons (acc : Str) {c : Char} (r : Str) (h : c ≠ '"') : csvQuoted acc (c :: r) = csvQuoted (acc ++ [c]) r := by
  conv => lhs; unfold csvQuoted
  split <;> simp_all

theorem plain_read (p : Str) (h1 : ',' ∉ p) (h2 : '"' ∉ p) (h3 : '\n' ∉ p) {a : CsvAfter} {u : Str} (ha : After a u) (acc : Str) :
    csvPlain acc (p ++ u) = some (acc ++ p, a) := by
  induction p generalizing acc with
  | nil =>
    cases a with
    | field r => cases ha; simp [csvPlain]
    | record r => rcases ha with rfl | ⟨rfl, rfl⟩ <;> simp [csvPlain]
  | cons c p ih =>
    simp only [List.mem_cons, not_or] at h1 h2 h3
    rw [List.cons_append, csvPlain_cons acc _ (Ne.symm h1.1) (Ne.symm h3.1) (Ne.symm h2.1), ih h1.2 h2.2 h3.2]
    simp

theorem plain_inv (s : Str) (acc f : Str) (a : CsvAfter) (h : csvPlain acc s = some (f, a)) :
    ∃ p u, ',' ∉ p ∧ '"' ∉ p ∧ '\n' ∉ p ∧ After a u ∧ s = p ++ u ∧ f = acc ++ p := by
  induction s generalizing acc with
  | nil => cases h; exact ⟨[], [], by simp, by simp, by simp, .inr ⟨rfl, rfl⟩, rfl, by simp⟩
  | cons c r ih =>
    by_cases h1 : c = ','
    · subst h1; cases h; exact ⟨[], ',' :: r, by simp, by simp, by simp, rfl, rfl, by simp⟩
    by_cases h2 : c = '\n'
    · subst h2; cases h; exact ⟨[], '\n' :: r, by simp, by simp, by simp, .inl rfl, rfl, by simp⟩
    by_cases h3 : c = '"'
    · subst h3; cases h
    rw [csvPlain_cons acc r h1 h2 h3] at h
    obtain ⟨p, u, p1, p2, p3, ha, rfl, rfl⟩ := ih _ h
    exact ⟨c :: p, u, by simp [p1, Ne.symm h1], by simp [p2, Ne.symm h3], by simp [p3, Ne.symm h2], ha, rfl, by simp⟩

theorem quoted_read (f : Str) {a : CsvAfter} {u : Str} (ha : After a u) (acc : Str) :
    csvQuoted acc (doubled f ++ '"' :: u) = some (acc ++ f, a) := by
  induction f generalizing acc with
  | nil =>
    cases a with
    | field r => cases ha; simp [doubled_nil, csvQuoted]
    | record r => rcases ha with rfl | ⟨rfl, rfl⟩ <;> simp [doubled_nil, csvQuoted]
  | cons c f ih =>
    by_cases hc : c = '"'
    · subst hc
      rw [doubled_quote]
      simp only [List.cons_append, csvQuoted]
      rw [ih]; simp
    · rw [doubled_cons hc, List.cons_append, csvQuoted_cons acc _ hc, ih]; simp

theorem quoted_inv (s : Str) (acc f : Str) (a : CsvAfter) (h : csvQuoted acc s = some (f, a)) :
    ∃ g u, After a u ∧ s = doubled g ++ '"' :: u ∧ f = acc ++ g := by
  induction hn : s.length using Nat.strongRecOn generalizing s acc with
  | ind n ih =>
    unfold csvQuoted at h
    split at h
    · cases h
    · rename_i r
      obtain ⟨g, u, ha, he, rfl⟩ := ih r.length (by simp at hn; omega) r _ h rfl
      exact ⟨'"' :: g, u, ha, by rw [doubled_quote, he]; rfl, by simp⟩
    · rename_i r; cases h; exact ⟨[], ',' :: r, rfl, rfl, by simp⟩
    · rename_i r; cases h; exact ⟨[], '\n' :: r, .inl rfl, rfl, by simp⟩
    · cases h; exact ⟨[], [], .inr ⟨rfl, rfl⟩, rfl, by simp⟩
    · cases h
    · rename_i c r _ _ _ _ hq
      have hc : c ≠ '"' := fun e => hq e
      obtain ⟨g, u, ha, he, rfl⟩ := ih r.length (by simp at hn; omega) r _ h rfl
      exact ⟨c :: g, u, ha, by rw [doubled_cons hc, he]; rfl, by simp⟩

theorem csvField_plain (s : Str) (h : ∀ r, s ≠ '"' :: r) : csvField s = csvPlain [] s := by
  unfold csvField
  split
  · rename_i r; exact absurd rfl (h r)
  · rfl

theorem field_read {f t : Str} (h : FieldText f t) {a : CsvAfter} {u : Str} (ha : After a u) : csvField (t ++ u) = some (f, a) := by
  cases h with
  | plain h1 h2 h3 =>
    rw [csvField_plain, plain_read f h1 h2 h3 ha]
    · rfl
    · intro r he
      cases f with
      | nil =>
        rw [List.nil_append] at he
        subst he
        cases a with
        | field r => cases ha
        | record r => rcases ha with h | ⟨h, -⟩ <;> cases h
      | cons c f => cases he; simp at h2
  | quoted =>
    simp only [List.append_assoc, List.cons_append, List.nil_append, csvField]
    rw [quoted_read f ha]; rfl

theorem field_inv {s f : Str} {a : CsvAfter} (h : csvField s = some (f, a)) : ∃ t u, FieldText f t ∧ After a u ∧ s = t ++ u := by
  unfold csvField at h
  split at h
  · rename_i r
    obtain ⟨g, u, ha, he, hf⟩ := quoted_inv _ _ _ _ h
    rw [List.nil_append] at hf
    subst hf
    exact ⟨_, u, .quoted f, ha, by rw [he]; simp⟩
  · obtain ⟨p, u, h1, h2, h3, ha, rfl, hf⟩ := plain_inv _ _ _ _ h
    rw [List.nil_append] at hf
    subst hf
    exact ⟨f, u, .plain f h1 h2 h3, ha, rfl⟩

/-- The text behind a record. -/
def Ended (r s : Str) : Prop := s = '\n' :: r ∨ (s = [] ∧ r = [])

theorem record_read {fs : List Str} {t : Str} (h : RecordText fs t) {r u : Str} (hu : Ended r u) (n : Nat) (hn : (t ++ u).length < n) :
    csvRecord n (t ++ u) = some (fs, r) := by
  induction h generalizing n with
  | one hf =>
    cases n with
    | zero => omega
    | succ n =>
      unfold csvRecord
      rw [field_read hf (a := .record r) hu]
  | @more f t fs v hf _ ih =>
    cases n with
    | zero => omega
    | succ n =>
      unfold csvRecord
      have e : t ++ g!"," ++ v ++ u = t ++ ',' :: (v ++ u) := by simp
      rw [e] at hn ⊢
      rw [field_read hf (a := .field (v ++ u)) rfl]
      dsimp only
      rw [ih n (by simp at hn ⊢; omega)]
      rfl

theorem record_inv (n : Nat) (s : Str) {fs : List Str} {r : Str} (h : csvRecord n s = some (fs, r)) :
    ∃ t u, RecordText fs t ∧ Ended r u ∧ s = t ++ u := by
  induction n generalizing s fs with
  | zero => cases h
  | succ n ih =>
    unfold csvRecord at h
    cases hf : csvField s with
    | none => rw [hf] at h; cases h
    | some p =>
      obtain ⟨f, a⟩ := p
      rw [hf] at h
      obtain ⟨t, u, ht, ha, rfl⟩ := field_inv hf
      cases a with
      | record r' => cases h; exact ⟨t, u, .one ht, ha, rfl⟩
      | field v =>
        dsimp only at h
        cases hr : csvRecord n v with
        | none => rw [hr] at h; cases h
        | some q =>
          obtain ⟨gs, w⟩ := q
          rw [hr] at h
          cases h
          obtain ⟨t', u', h1, h2, h3⟩ := ih v hr
          cases ha
          exact ⟨_, u', .more ht h1, h2, by rw [h3]; simp⟩

theorem record_start {fs : List Str} {t : Str} (h : RecordText fs t) (r : Str) : t ≠ '\n' :: r := by
  have hf : ∀ {f t : Str}, FieldText f t → ∀ v, t ++ v = '\n' :: r → t = [] := by
    intro f t h v he
    cases h with
    | plain _ _ h3 =>
      cases f with
      | nil => rfl
      | cons c f => cases he; simp at h3
    | quoted => cases he
  intro he
  cases h with
  | one h =>
    have := hf h [] (by simpa using he)
    subst this; cases he
  | more h _ =>
    have := hf h _ (by rw [← he, List.append_assoc])
    subst this; cases he

theorem length_pos {α : Type} {t : List α} (h : t ≠ []) : 0 < t.length := by
  cases t with
  | nil => exact absurd rfl h
  | cons => simp

theorem all_read {rs : List (List Str)} {s : Str} (h : CsvDoc rs s) (want : Option Nat) (k : Nat) (hw : ∀ w, want = some w → w = k)
    (hk : ∀ r ∈ rs, r.length = k) (n : Nat) (hn : s.length < n) : csvAll want n s = (rs, true) := by
  induction h generalizing n want with
  | empty =>
    cases n with
    | zero => omega
    | succ n => rfl
  | blank _ ih =>
    cases n with
    | zero => omega
    | succ n =>
      show csvAll want (n + 1) ('\n' :: _) = _
      unfold csvAll
      rw [if_pos rfl]
      exact ih want hw hk n (by simp at hn; omega)
  | @last r t ht hne =>
    cases n with
    | zero => omega
    | succ n =>
      obtain ⟨c, t, rfl⟩ : ∃ c t', t = c :: t' := by
        cases t with
        | nil => exact absurd rfl hne
        | cons c t => exact ⟨c, t, rfl⟩
      unfold csvAll
      have hc : c ≠ '\n' := by
        intro e
        exact record_start ht t (by rw [e])
      rw [if_neg hc]
      have hr := record_read ht (r := []) (u := []) (.inr ⟨rfl, rfl⟩) ((c :: t).length + 1) (by simp)
      rw [List.append_nil] at hr
      rw [hr]
      dsimp only
      have hl := hk r (by simp)
      have hw' : want = none ∨ want = some r.length := by
        cases want with
        | none => exact .inl rfl
        | some w => rw [hw w rfl, hl]; exact .inr rfl
      rw [if_pos hw']
      cases n with
      | zero => simp at hn
      | succ n => rfl
  | @line r t rs u ht hne _ ih =>
    cases n with
    | zero => omega
    | succ n =>
      obtain ⟨c, t, rfl⟩ : ∃ c t', t = c :: t' := by
        cases t with
        | nil => exact absurd rfl hne
        | cons c t => exact ⟨c, t, rfl⟩
      have hc : c ≠ '\n' := by
        intro e
        exact record_start ht t (by rw [e])
      have e : c :: t ++ g!"\n" ++ u = c :: (t ++ '\n' :: u) := by simp
      rw [e] at hn ⊢
      unfold csvAll
      rw [if_neg hc]
      have hr := record_read ht (r := u) (u := '\n' :: u) (.inl rfl) ((c :: (t ++ '\n' :: u)).length + 1) (by simp)
      rw [List.cons_append] at hr
      rw [hr]
      dsimp only
      have hl := hk r (by simp)
      have hw' : want = none ∨ want = some r.length := by
        cases want with
        | none => exact .inl rfl
        | some w => rw [hw w rfl, hl]; exact .inr rfl
      rw [if_pos hw', ih (some r.length) (by rintro w ⟨⟩; exact hl) (fun r h => hk r (List.mem_cons_of_mem _ h)) n
        (by simp at hn; omega)]

theorem all_inv (n : Nat) (want : Option Nat) (s : Str) (hn : s.length < n) {rs : List (List Str)} (h : csvAll want n s = (rs, true)) :
    CsvDoc rs s ∧ ∃ k, (∀ w, want = some w → w = k) ∧ ∀ r ∈ rs, r.length = k := by
  induction n generalizing want s rs with
  | zero => omega
  | succ n ih =>
    cases s with
    | nil =>
      cases h
      refine ⟨.empty, want.getD 0, ?_, by simp⟩
      rintro w rfl; rfl
    | cons c r =>
      unfold csvAll at h
      split at h
      · rename_i hc
        subst hc
        obtain ⟨h1, h2⟩ := ih want r (by simp at hn; omega) h
        exact ⟨.blank h1, h2⟩
      · rename_i hc
        split at h
        · cases h
        · rename_i fs rest hr
          dsimp only at h
          split at h
          · rename_i hw
            obtain ⟨t, u, ht, hu, he⟩ := record_inv _ _ hr
            have hne : t ≠ [] := by
              rintro rfl
              rcases hu with rfl | ⟨rfl, -⟩
              · cases he; exact hc rfl
              · cases he
            have hlt : rest.length < n := by
              have := length_pos hne
              have := congrArg List.length he
              rw [List.length_append] at this
              rcases hu with rfl | ⟨rfl, rfl⟩ <;> simp at hn this ⊢ <;> omega
            simp only [Prod.mk.injEq] at h
            obtain ⟨rfl, h2⟩ := h
            obtain ⟨h3, k, h4, h5⟩ := ih (some fs.length) rest hlt (rs := (csvAll (some fs.length) n rest).1) (by rw [← h2])
            have hk := h4 _ rfl
            refine ⟨?_, k, ?_, ?_⟩
            · rw [he]
              rcases hu with rfl | ⟨rfl, rfl⟩
              · have := CsvDoc.line ht hne h3
                simpa using this
              · have h0 : (csvAll (some fs.length) n []).1 = [] := by
                  cases n <;> rfl
                rw [h0, List.append_nil]
                exact .last ht hne
            · intro w e
              rcases hw with hw | hw
              · rw [e] at hw; cases hw
              · rw [e] at hw; cases hw; exact hk
            · intro r hr
              rcases List.mem_cons.1 hr with rfl | hr
              · exact hk
              · exact h5 r hr
          · cases h

theorem normal_id (t : Str) (h : '\r' ∉ t) : csvNormal t = t := by
  induction t with
  | nil => rfl
  | cons c t ih =>
    simp only [List.mem_cons, not_or] at h
    unfold csvNormal
    split <;> simp_all

theorem normal_iff (t u : Str) : csvNormal t = u ↔ LineEnds t u := by
  constructor
  · rintro rfl
    induction t using csvNormal.induct with
    | case1 => exact .nil
    | case2 => exact .last
    | case3 r ih => exact .crlf ih
    | case4 c r h1 h2 ih =>
      rw [csvNormal]
      · refine .other ?_ ih
        rintro rfl
        cases r with
        | nil => exact absurd rfl (h1 rfl)
        | cons d r => exact ⟨d, r, rfl, fun e => h2 r rfl (by rw [e])⟩
      · exact h1
      · exact h2
  · intro h
    induction h with
    | nil => rfl
    | last => rfl
    | crlf _ ih => rw [← ih]; rfl
    | @other c t u hc _ ih =>
      rw [csvNormal, ih]
      · rintro rfl rfl
        obtain ⟨d, r, e, -⟩ := hc rfl
        cases e
      · rintro r rfl rfl
        obtain ⟨d, r', e, hd⟩ := hc rfl
        cases e
        exact hd rfl

theorem normal_crlf (t : Str) (h : '\r' ∉ t) : csvNormal (crlf t) = t := by
  induction t with
  | nil => rfl
  | cons c t ih =>
    simp only [List.mem_cons, not_or] at h
    by_cases hc : c = '\n'
    · subst hc
      show csvNormal ('\r' :: '\n' :: crlf t) = _
      rw [csvNormal, ih h.2]
    · have e : crlf (c :: t) = c :: crlf t := by simp [crlf, hc]
      rw [e]
      have := Ne.symm h.1
      conv => lhs; unfold csvNormal
      split <;> simp_all

end Osv.Csv
