import Verif.Go.JsonEncode
import Verif.Spec.TomlFiles
import Verif.Lemmas.Case
/-! # Lockfiles in TOML: lemmas -/
namespace Osv.Toml
open Str Spec

theorem fields_isSome {α : Type} {n : TNode} {shapes : List (Str × (TNode → Prop))} (r : List (Str × TNode) → Option α)
    (h : ∀ es, n = .table es → ((r es).isSome ↔ ∀ x ∈ shapes, ∀ v, TEntry n x.1 v → x.2 v)) :
    ((fields n).bind r).isSome ↔ TIsStruct shapes n := by
  unfold TIsStruct
  cases n with
  | table es =>
    rw [fields, Option.bind_some, h es rfl]
    exact ⟨fun h => ⟨es, rfl, h⟩, fun ⟨_, _, h⟩ => h⟩
  | _ => simp [fields]

theorem get_isSome {α : Type} {d : TNode → Option α} {P : TNode → Prop} (hd : ∀ n, (d n).isSome ↔ P n) (zero : α)
    (es : List (Str × TNode)) (k : Str) : (get d zero es k).isSome ↔ ∀ v, TEntry (.table es) k v → P v := by
  induction es generalizing zero with
  | nil => simp [get, TEntry]
  | cons e es ih =>
    obtain ⟨k', v'⟩ := e
    have key : (∀ v, TEntry (.table ((k', v') :: es)) k v → P v) ↔
        (SameName k' k → P v') ∧ ∀ v, TEntry (.table es) k v → P v := by
      constructor
      · intro h
        refine ⟨fun e => h v' ⟨_, k', rfl, by simp, e⟩, ?_⟩
        rintro v ⟨_, k'', e, hm, hk⟩
        cases e
        exact h v ⟨_, k'', rfl, by simp [hm], hk⟩
      · rintro ⟨h1, h2⟩ v ⟨_, k'', e, hm, hk⟩
        cases e
        rcases List.mem_cons.1 hm with e | hm
        · cases e
          exact h1 hk
        · exact h2 v ⟨_, k'', rfl, hm, hk⟩
    rw [key]
    simp only [get, fold_iff]
    split
    · rename_i e
      cases hv : d v' with
      | none =>
        have := hd v'
        rw [hv] at this
        simp at this
        simp [e, this]
      | some a =>
        have := hd v'
        rw [hv] at this
        simp at this
        rw [Option.bind_some, ih]
        simp [this]
    · rename_i e
      rw [ih]
      simp [e]

theorem get_absent {α : Type} {d : TNode → Option α} {zero : α} {es : List (Str × TNode)} {k : Str}
    (h : ∀ v, ¬ TEntry (.table es) k v) : get d zero es k = some zero := by
  induction es with
  | nil => rfl
  | cons e es ih =>
    obtain ⟨k', v'⟩ := e
    simp only [get, fold_iff]
    rw [if_neg fun e => h v' ⟨_, k', rfl, by simp, e⟩]
    apply ih
    rintro v ⟨_, k'', e, hm, hk⟩
    cases e
    exact h v ⟨_, k'', rfl, by simp [hm], hk⟩

/-- The entry of a field in a table with different keys. -/
theorem get_entry {α : Type} {d : TNode → Option α} {zero : α} {es : List (Str × TNode)} {k : Str}
    (hn : (es.map fun e => fold e.1).Nodup) {v : TNode} (h : TEntry (.table es) k v) : get d zero es k = d v := by
  induction es with
  | nil =>
    obtain ⟨_, _, e, hm, _⟩ := h
    cases e
    cases hm
  | cons e es ih =>
    obtain ⟨k', v'⟩ := e
    rw [List.map_cons, List.nodup_cons] at hn
    obtain ⟨_, k'', e, hm, hk⟩ := h
    cases e
    rw [← fold_iff] at hk
    simp only [get]
    rcases List.mem_cons.1 hm with e | hm
    · cases e
      rw [if_pos hk]
      cases hv : d v with
      | none => rfl
      | some a =>
        rw [Option.bind_some]
        apply get_absent
        rintro w ⟨_, j, e, hm, hj⟩
        cases e
        exact hn.1 (List.mem_map.2 ⟨_, hm, by rw [(fold_iff _ _).2 hj, hk]⟩)
    · rw [if_neg, ih hn.2 ⟨_, k'', rfl, hm, (fold_iff _ _).1 hk⟩]
      intro e
      exact hn.1 (List.mem_map.2 ⟨_, hm, by rw [hk, e]⟩)

theorem text_isSome (n : TNode) : (text n).isSome ↔ TIsText n := by
  cases n <;> simp [text, TIsText]

theorem int_isSome (n : TNode) : (int n).isSome ↔ TIsInt n := by
  cases n <;> simp [int, TIsInt]

theorem items_isSome {α : Type} {d : TNode → Option α} {P : TNode → Prop} (hd : ∀ n, (d n).isSome ↔ P n) (l : List TNode) :
    (items d l).isSome ↔ ∀ v ∈ l, P v := by
  induction l with
  | nil => simp [items]
  | cons n l ih =>
    simp only [List.mem_cons, forall_eq_or_imp, items]
    rw [← ih, ← hd]
    cases d n <;> cases items d l <;> simp

theorem listOf_isSome {α : Type} {d : TNode → Option α} {P : TNode → Prop} (hd : ∀ n, (d n).isSome ↔ P n) (n : TNode) :
    (listOf d n).isSome ↔ TIsListOf P n := by
  unfold TIsListOf
  cases n with
  | arr l =>
    rw [listOf, items_isSome hd]
    simp
  | _ => simp [listOf]

theorem items_each {α : Type} {d : TNode → Option α} {l : List TNode} {r : List α} (h : items d l = some r) :
    Each (fun v a => d v = some a) l r := by
  induction l generalizing r with
  | nil =>
    cases h
    exact .nil
  | cons n l ih =>
    simp only [items] at h
    cases hd : d n with
    | none =>
      rw [hd] at h
      cases h
    | some a =>
      cases hl : items d l with
      | none =>
        rw [hd, hl] at h
        cases h
      | some r' =>
        rw [hd, hl] at h
        cases h
        exact .cons hd (ih hl)

theorem at_nil {n w : TNode} : TAt n [] w ↔ n = w := by
  constructor
  · intro h
    cases h
    rfl
  · rintro rfl
    exact .here _

theorem entry_unique {es : List (Str × TNode)} {k : Str} (hn : (es.map fun e => fold e.1).Nodup) {v w : TNode}
    (hv : TEntry (.table es) k v) (hw : TEntry (.table es) k w) : v = w := by
  have h1 := get_entry (d := some) (zero := v) hn hv
  rw [get_entry (d := some) (zero := v) hn hw] at h1
  exact (Option.some.inj h1).symm

/-- The text of a field. -/
theorem text_field {es : List (Str × TNode)} (hn : (es.map fun e => fold e.1).Nodup) {k s : Str} (h : get text [] es k = some s)
    (t : Str) : TText (.table es) [k] t ↔ t = s := by
  have hat : ∀ t, TAt (.table es) [k] (.str t) ↔ TEntry (.table es) k (.str t) := by
    intro t
    constructor
    · rintro (_ | ⟨he, ha⟩)
      rw [← at_nil.1 ha]
      exact he
    · intro he
      exact .step he (.here _)
  unfold TText
  simp only [hat]
  by_cases he : ∃ v, TEntry (.table es) k v
  · obtain ⟨v, hv⟩ := he
    rw [get_entry hn hv] at h
    cases v with
    | str u =>
      cases h
      constructor
      · rintro (h | h)
        · cases entry_unique hn h hv
          rfl
        · exact absurd hv (h.1 _)
      · rintro rfl
        exact .inl hv
    | _ => cases h
  · have he : ∀ v, ¬ TEntry (.table es) k v := fun v hv => he ⟨v, hv⟩
    rw [get_absent he] at h
    cases h
    constructor
    · rintro (h | h)
      · exact absurd h (he _)
      · exact h.2
    · rintro rfl
      exact .inr ⟨fun t => he _, rfl⟩

/-- The text in a table within a table. -/
theorem text_within {α : Type} {es : List (Str × TNode)} (hn : (es.map fun e => fold e.1).Nodup) {d : TNode → Option α} {zero a : α}
    {k j s : Str} (h : get d zero es k = some a)
    (hd : ∀ v, TEntry (.table es) k v → d v = some a → ∀ t, TText v [j] t ↔ t = s) (h0 : a = zero → (∀ v, ¬ TEntry (.table es) k v) → s = [])
    (t : Str) : TText (.table es) [k, j] t ↔ t = s := by
  by_cases he : ∃ v, TEntry (.table es) k v
  · obtain ⟨v, hv⟩ := he
    rw [get_entry hn hv] at h
    rw [← hd v hv h]
    have hat : ∀ w, TAt (.table es) [k, j] w ↔ TAt v [j] w := by
      intro w
      constructor
      · rintro (_ | ⟨he, ha⟩)
        rw [entry_unique hn hv he]
        exact ha
      · intro ha
        exact .step hv ha
    unfold TText
    simp only [hat]
  · have he : ∀ v, ¬ TEntry (.table es) k v := fun v hv => he ⟨v, hv⟩
    rw [get_absent he] at h
    cases h
    rw [h0 rfl he]
    have hat : ∀ w, ¬ TAt (.table es) [k, j] w := by
      rintro w (_ | ⟨h, _⟩)
      exact he _ h
    unfold TText
    simp [hat]

/-- The list of a field. -/
theorem list_field {α : Type} {d : TNode → Option α} {es : List (Str × TNode)} (hn : (es.map fun e => fold e.1).Nodup) {k : Str}
    {r : List α} (h : get (listOf d) [] es k = some r) :
    ∃ l, TItems (.table es) k l ∧ Each (fun v a => d v = some a) l r := by
  by_cases he : ∃ v, TEntry (.table es) k v
  · obtain ⟨v, hv⟩ := he
    rw [get_entry hn hv] at h
    cases v with
    | arr l => exact ⟨l, .inl hv, items_each h⟩
    | _ => cases h
  · have he : ∀ v, ¬ TEntry (.table es) k v := fun v hv => he ⟨v, hv⟩
    rw [get_absent he] at h
    cases h
    exact ⟨[], .inr ⟨fun _ => he _, rfl⟩, .nil⟩

theorem plain_items {n : TNode} (h : TPlain n) {k : Str} {l : List TNode} (hl : TItems n k l) : ∀ v ∈ l, TPlain v := by
  rcases hl with ⟨es, k', rfl, hm, _⟩ | ⟨_, rfl⟩
  · cases h with
    | table _ h =>
      have := h _ hm
      cases this with
      | arr h => exact h
  · simp

theorem plain_entry {es : List (Str × TNode)} (h : TPlain (.table es)) {k : Str} {v : TNode} (he : TEntry (.table es) k v) : TPlain v := by
  obtain ⟨_, k', e, hm, _⟩ := he
  cases e
  cases h with
  | table _ h => exact h _ hm

theorem plain_keys {es : List (Str × TNode)} (h : TPlain (.table es)) : (es.map fun e => fold e.1).Nodup := by
  cases h with
  | table h _ => exact (nodup_fold _).2 h

theorem fields_some {n : TNode} {es : List (Str × TNode)} (h : fields n = some es) : n = .table es := by
  cases n with
  | table es' =>
    cases h
    rfl
  | _ => cases h

/-- From the packages decoded to the packages in the document. -/
theorem entries_of_each {α : Type} {d : TNode → Option α} {entry : α → PackageDetails → Prop} {says : TNode → PackageDetails → Prop}
    {l : List TNode} {r : List α} {ps : List PackageDetails} (h : Each (fun v a => d v = some a) l r) (he : Entries entry r ps)
    (hs : ∀ v ∈ l, ∀ a, d v = some a → ∀ p, entry a p ↔ says v p) : Entries says l ps := by
  induction h generalizing ps with
  | nil =>
    cases he
    exact .nil
  | cons ha _ ih =>
    have hs' := fun v hv => hs v (List.mem_cons_of_mem _ hv)
    cases he with
    | keep h1 h2 => exact .keep ((hs _ (by simp) _ ha _).1 h1) (ih h2 hs')
    | skip h1 h2 => exact .skip (fun p hp => h1 p ((hs _ (by simp) _ ha _).2 hp)) (ih h2 hs')

end Osv.Toml
