import Verif.Lemmas.JsonDecode
/-! # When decoding succeeds, and what it leaves in a map -/
namespace Osv.Json
open Osv Spec

/-- A struct is decoded if every one of its fields is. -/
theorem decMembers_ok {σ : Type} {fields : List Str} {step : Str → JVal → σ → Option σ} {ok : Str → JVal → Prop}
    (hstep : ∀ f ∈ fields, ∀ v s, (∃ s', step f v s = some s') ↔ ok f v)
    (l : List (Str × JVal)) (hp : ∀ x ∈ l, ∀ g ∈ fields, SameName g x.1 → g = x.1) (s : σ) :
    (∃ s', decMembers fields step l s = some s') ↔ ∀ f ∈ fields, ∀ v, (f, v) ∈ l → ok f v := by
  induction l generalizing s with
  | nil => simp [decMembers]
  | cons x l ih =>
    obtain ⟨k, v⟩ := x
    have ih' := ih (fun x hx => hp x (by simp [hx]))
    unfold decMembers
    by_cases hk : k ∈ fields
    · rw [fieldOf_self hk]
      dsimp only
      constructor
      · rintro ⟨s', h⟩
        obtain ⟨s1, h1, h2⟩ := Option.bind_eq_some_iff.1 h
        intro f hf w hw
        rcases List.mem_cons.1 hw with e | hw
        · injection e with e1 e2
          subst e1; subst e2
          exact (hstep f hf w s).1 ⟨s1, h1⟩
        · exact (ih' s1).1 ⟨s', h2⟩ f hf w hw
      · intro h
        obtain ⟨s1, h1⟩ := (hstep k hk v s).2 (h k hk v (by simp))
        rw [h1]
        exact (ih' s1).2 fun f hf w hw => h f hf w (by simp [hw])
    · rw [fieldOf_none (k := k) (fun g hg e => hp (k, v) (by simp) g hg e) hk]
      dsimp only
      rw [ih' s]
      constructor
      · intro h f hf w hw
        rcases List.mem_cons.1 hw with e | hw
        · injection e with e1 e2
          exact absurd (e1 ▸ hf) hk
        · exact h f hf w hw
      · intro h f hf w hw
        exact h f hf w (by simp [hw])

theorem decMembers_total {σ : Type} {fields : List Str} {step : Str → JVal → σ → Option σ}
    (l : List (Str × JVal)) (hp : ∀ x ∈ l, ∀ g ∈ fields, SameName g x.1 → g = x.1)
    (hstep : ∀ f ∈ fields, ∀ v, (f, v) ∈ l → ∀ s, ∃ s', step f v s = some s') (s : σ) :
    ∃ s', decMembers fields step l s = some s' := by
  induction l generalizing s with
  | nil => exact ⟨s, rfl⟩
  | cons x l ih =>
    obtain ⟨k, v⟩ := x
    have ih' := ih (fun x hx => hp x (by simp [hx])) (fun f hf w hw => hstep f hf w (by simp [hw]))
    unfold decMembers
    by_cases hk : k ∈ fields
    · rw [fieldOf_self hk]
      obtain ⟨s1, h1⟩ := hstep k hk v (by simp) s
      dsimp only
      rw [h1]
      exact ih' s1
    · rw [fieldOf_none (k := k) (fun g hg e => hp (k, v) (by simp) g hg e) hk]
      exact ih' s

/-- A map is decoded if every one of its values is. -/
theorem decEntries_ok {α : Type} (dec : JVal → Option α) (l : List (Str × JVal)) (old : SMap α) :
    (∃ m, decEntries dec l old = some m) ↔ ∀ x ∈ l, ∃ a, dec x.2 = some a := by
  induction l generalizing old with
  | nil => simp [decEntries]
  | cons y l ih =>
    obtain ⟨k, v⟩ := y
    unfold decEntries
    constructor
    · rintro ⟨m, h⟩ x hx
      obtain ⟨a, h1, h2⟩ := Option.bind_eq_some_iff.1 h
      rcases List.mem_cons.1 hx with rfl | hx
      · exact ⟨a, h1⟩
      · exact (ih _).1 ⟨m, h2⟩ x hx
    · intro h
      obtain ⟨a, h1⟩ := h (k, v) (by simp)
      dsimp only at h1
      rw [h1]
      exact (ih _).2 fun x hx => h x (by simp [hx])

theorem set_new {α : Type} (m : SMap α) (k : Str) (v : α) (h : k ∉ m.map (·.1)) : m.set k v = m ++ [(k, v)] := by
  induction m with
  | nil => rfl
  | cons x m ih =>
    simp only [List.map_cons, List.mem_cons, not_or] at h
    unfold SMap.set
    rw [if_neg (Ne.symm h.1), ih h.2]
    rfl

/-- The entries of a decoded map, one for every member. -/
theorem decEntries_list {α : Type} (dec : JVal → Option α) (l : List (Str × JVal)) (old m : SMap α)
    (h : decEntries dec l old = some m) (hn : (l.map (·.1)).Nodup) (hd : ∀ x ∈ l, x.1 ∉ old.map (·.1)) :
    ∃ xs, m = old ++ xs ∧ l.map (fun x => (x.1, dec x.2)) = xs.map (fun x => (x.1, some x.2)) := by
  induction l generalizing old with
  | nil =>
    simp only [decEntries, Option.some.injEq] at h
    exact ⟨[], by simp [h], rfl⟩
  | cons y l ih =>
    obtain ⟨k, v⟩ := y
    simp only [List.map_cons, List.nodup_cons] at hn
    unfold decEntries at h
    obtain ⟨a, h1, h2⟩ := Option.bind_eq_some_iff.1 h
    have hk : k ∉ old.map (·.1) := hd (k, v) (by simp)
    obtain ⟨xs, e1, e2⟩ := ih (old.set k a) h2 hn.2 (by
      intro z hz
      rw [SMap.mem_keys_set]
      rintro (e | e)
      · exact hn.1 (e ▸ List.mem_map.2 ⟨z, hz, rfl⟩)
      · exact hd z (by simp [hz]) e)
    refine ⟨(k, a) :: xs, ?_, ?_⟩
    · rw [e1, set_new _ _ _ hk]; simp
    · simp [e2, h1]

theorem decElems_ok {α : Type} (dec : JVal → Option α) (l : List JVal) :
    (∃ r, decElems dec l = some r) ↔ ∀ v ∈ l, ∃ a, dec v = some a := by
  induction l with
  | nil => simp [decElems]
  | cons v l ih =>
    unfold decElems
    constructor
    · rintro ⟨r, h⟩ w hw
      obtain ⟨a, h1, h2⟩ := Option.bind_eq_some_iff.1 h
      rcases List.mem_cons.1 hw with rfl | hw
      · exact ⟨a, h1⟩
      · obtain ⟨r', h3, _⟩ := Option.map_eq_some_iff.1 h2
        exact ih.1 ⟨r', h3⟩ w hw
    · intro h
      obtain ⟨a, h1⟩ := h v (by simp)
      obtain ⟨r, h2⟩ := ih.2 fun w hw => h w (by simp [hw])
      exact ⟨a :: r, by rw [h1, h2]; rfl⟩

theorem decStr_ok (v : JVal) (old : Str) : (∃ s, decStr v old = some s) ↔ IsText v := by
  cases v <;> simp [decStr, IsText]

theorem decInt_ok (v : JVal) : (∃ s, decInt v = some s) ↔ IsInt v := by
  cases v <;> simp [decInt, IsInt, isInt64_iff]

end Osv.Json

namespace Osv

/-- A permutation of the images of a list is the list of images of a permutation. -/
theorem perm_map_lift {α β : Type} {g : α → β} {a b : List β} (h : a.Perm b) :
    ∀ l : List α, b = l.map g → ∃ items : List α, items.Perm l ∧ items.map g = a := by
  induction h with
  | nil =>
    intro l e
    exact ⟨[], by rw [List.map_eq_nil_iff.1 e.symm], rfl⟩
  | @cons x a b _ ih =>
    intro l e
    cases l with
    | nil => cases e
    | cons y l =>
      injection e with e1 e2
      obtain ⟨items, hp, hm⟩ := ih l e2
      exact ⟨y :: items, hp.cons y, by rw [List.map_cons, hm, e1]⟩
  | swap x y l0 =>
    intro l e
    cases l with
    | nil => cases e
    | cons u l =>
      cases l with
      | nil => cases e
      | cons w l =>
        simp only [List.map_cons, List.cons.injEq] at e
        exact ⟨w :: u :: l, List.Perm.swap _ _ _, by simp [e.1, e.2.1, e.2.2]⟩
  | trans _ _ ih1 ih2 =>
    intro l e
    obtain ⟨i2, hp2, hm2⟩ := ih2 l e
    obtain ⟨i1, hp1, hm1⟩ := ih1 i2 hm2.symm
    exact ⟨i1, hp1.trans hp2, hm1⟩

end Osv
