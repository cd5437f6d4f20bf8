import Verif.Spec.JsonDoc
import Verif.Lemmas.Case
import Verif.Lemmas.DetailMap
/-! # Decoding of plain objects -/
namespace Osv.Json
open Osv Spec

theorem key_unique {α : Type} {l : List (Str × α)} (h : (l.map (·.1)).Nodup) {k : Str} {a b : α} (ha : (k, a) ∈ l)
    (hb : (k, b) ∈ l) : a = b := by
  induction l with
  | nil => cases ha
  | cons x l ih =>
    simp only [List.map_cons, List.nodup_cons] at h
    rcases List.mem_cons.1 ha with rfl | ha'
    · rcases List.mem_cons.1 hb with e | hb'
      · exact (congrArg Prod.snd e).symm
      · exact absurd (List.mem_map.2 ⟨_, hb', rfl⟩) h.1
    · rcases List.mem_cons.1 hb with rfl | hb'
      · exact absurd (List.mem_map.2 ⟨_, ha', rfl⟩) h.1
      · exact ih h.2 ha' hb'

theorem fieldOf_self {fields : List Str} {k : Str} (h : k ∈ fields) : fieldOf fields k = some k := by
  unfold fieldOf
  rw [if_pos (by simpa using h)]

theorem fieldOf_none {fields : List Str} {k : Str} (h : ∀ f ∈ fields, SameName f k → f = k) (hk : k ∉ fields) :
    fieldOf fields k = none := by
  unfold fieldOf
  rw [if_neg (by simpa using hk), List.find?_eq_none]
  intro f hf e
  exact hk (h f hf ((foldName_iff f k).1 (by simpa using e)) ▸ hf)

/-- What decoding leaves in one field of a struct. -/
theorem decMembers_field {σ α : Type} {fields : List Str} {step : Str → JVal → σ → Option σ} (f : Str) (get : σ → α)
    (dec : JVal → α → Option α) (hf : f ∈ fields)
    (hstep : ∀ v s s', step f v s = some s' → dec v (get s) = some (get s'))
    (hother : ∀ g ∈ fields, g ≠ f → ∀ v s s', step g v s = some s' → get s' = get s)
    (l : List (Str × JVal)) (hn : (l.map (·.1)).Nodup)
    (hp : ∀ x ∈ l, ∀ g ∈ fields, SameName g x.1 → g = x.1) (s s' : σ) (h : decMembers fields step l s = some s') :
    (∃ v, (f, v) ∈ l ∧ dec v (get s) = some (get s')) ∨ ((∀ v, (f, v) ∉ l) ∧ get s' = get s) := by
  induction l generalizing s with
  | nil =>
    simp only [decMembers, Option.some.injEq] at h
    exact Or.inr ⟨by simp, by rw [h]⟩
  | cons x l ih =>
    obtain ⟨k, v⟩ := x
    simp only [List.map_cons, List.nodup_cons] at hn
    have ih' := ih hn.2 (fun x hx => hp x (by simp [hx]))
    unfold decMembers at h
    by_cases hk : k ∈ fields
    · rw [fieldOf_self hk] at h
      obtain ⟨s1, h1, h2⟩ := Option.bind_eq_some_iff.1 h
      by_cases hkf : k = f
      · subst hkf
        left
        refine ⟨v, by simp, ?_⟩
        rcases ih' s1 h2 with ⟨w, hw, _⟩ | ⟨_, e⟩
        · exact absurd (List.mem_map.2 ⟨_, hw, rfl⟩) hn.1
        · rw [e]; exact hstep v s s1 h1
      · have e := hother k hk hkf v s s1 h1
        rcases ih' s1 h2 with ⟨w, hw, e'⟩ | ⟨hw, e'⟩
        · exact Or.inl ⟨w, by simp [hw], by rw [← e]; exact e'⟩
        · exact Or.inr ⟨fun w hm => by
            rcases List.mem_cons.1 hm with h | h
            · exact hkf (congrArg Prod.fst h).symm
            · exact hw w h, by rw [e', e]⟩
    · rw [fieldOf_none (k := k) (fun g hg e => hp (k, v) (by simp) g hg e) hk] at h
      have hkf : k ≠ f := fun e => hk (e ▸ hf)
      rcases ih' s h with ⟨w, hw, e'⟩ | ⟨hw, e'⟩
      · exact Or.inl ⟨w, by simp [hw], e'⟩
      · exact Or.inr ⟨fun w hm => by
          rcases List.mem_cons.1 hm with h | h
          · exact hkf (congrArg Prod.fst h).symm
          · exact hw w h, e'⟩

/-- A text field that was empty before. -/
theorem decMembers_text {σ : Type} {fields : List Str} {step : Str → JVal → σ → Option σ} (f : Str) (get : σ → Str)
    (hf : f ∈ fields)
    (hstep : ∀ v s s', step f v s = some s' → decStr v (get s) = some (get s'))
    (hother : ∀ g ∈ fields, g ≠ f → ∀ v s s', step g v s = some s' → get s' = get s)
    (m : JMembers) (hp : PlainKeys fields m) (s s' : σ) (h0 : get s = []) (h : decMembers fields step m.toList s = some s') :
    TextField m f (get s') := by
  rcases decMembers_field f get decStr hf hstep hother m.toList hp.1 hp.2 s s' h with ⟨v, hv, e⟩ | ⟨hv, e⟩
  · unfold decStr at e
    split at e
    · injection e with e; rw [← e]; exact Or.inl hv
    · injection e with e
      refine Or.inr ⟨by rw [← e, h0], fun w hw => ?_⟩
      exact key_unique hp.1 hw hv
    · cases e
  · exact Or.inr ⟨by rw [e, h0], fun w hw => absurd hw (hv w)⟩

/-- Entries of a decoded map. -/
theorem decEntries_mem {α : Type} (dec : JVal → Option α) (l : List (Str × JVal)) (old m : SMap α)
    (h : decEntries dec l old = some m) (hn : (l.map (·.1)).Nodup) (hd : ∀ x ∈ l, x.1 ∉ old.map (·.1)) (x : Str × α) :
    x ∈ m ↔ x ∈ old ∨ ∃ v, (x.1, v) ∈ l ∧ dec v = some x.2 := by
  induction l generalizing old with
  | nil =>
    simp only [decEntries, Option.some.injEq] at h
    subst h; simp
  | cons y l ih =>
    obtain ⟨k, v⟩ := y
    simp only [List.map_cons, List.nodup_cons] at hn
    unfold decEntries at h
    obtain ⟨a, h1, h2⟩ := Option.bind_eq_some_iff.1 h
    have hk : k ∉ old.map (·.1) := hd (k, v) (by simp)
    have hset : ∀ x, x ∈ old.set k a ↔ x ∈ old ∨ x = (k, a) := by
      intro x
      constructor
      · intro hx
        rcases SMap.mem_set _ _ _ _ hx with h | h
        · exact Or.inr h
        · exact Or.inl h
      · rintro (hx | rfl)
        · clear h h1 h2 hd ih
          induction old with
          | nil => cases hx
          | cons z old ih =>
            simp only [List.map_cons, List.mem_cons, not_or] at hk
            unfold SMap.set
            rw [if_neg (Ne.symm hk.1)]
            rcases List.mem_cons.1 hx with rfl | hx
            · simp
            · exact List.mem_cons_of_mem _ (ih hk.2 hx)
        · exact SMap.set_mem _ _ _
    rw [ih _ h2 hn.2, hset]
    · constructor
      · rintro ((h | rfl) | ⟨w, hw, e⟩)
        · exact Or.inl h
        · exact Or.inr ⟨v, by simp, h1⟩
        · exact Or.inr ⟨w, by simp [hw], e⟩
      · rintro (h | ⟨w, hw, e⟩)
        · exact Or.inl (Or.inl h)
        · rcases List.mem_cons.1 hw with h | h
          · injection h with hx hw
            subst hw
            rw [h1] at e
            injection e with e
            exact Or.inl (Or.inr (Prod.ext hx e.symm))
          · exact Or.inr ⟨w, h, e⟩
    · intro z hz
      rw [SMap.mem_keys_set]
      rintro (e | e)
      · exact hn.1 (e ▸ List.mem_map.2 ⟨z, hz, rfl⟩)
      · exact hd z (by simp [hz]) e

theorem decElems_mem {α : Type} (dec : JVal → Option α) (l : List JVal) (r : List α) (h : decElems dec l = some r) :
    l.map dec = r.map some := by
  induction l generalizing r with
  | nil => simp only [decElems, Option.some.injEq] at h; subst h; rfl
  | cons v l ih =>
    unfold decElems at h
    obtain ⟨x, h1, h2⟩ := Option.bind_eq_some_iff.1 h
    obtain ⟨r', h3, rfl⟩ := Option.map_eq_some_iff.1 h2
    simp [h1, ih r' h3]

end Osv.Json
