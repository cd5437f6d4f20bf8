import Verif.Spec.Yaml
/-! # Decoding YAML nodes: lemmas -/
namespace Osv.Yaml
open Str Spec

theorem keys_isSome (es : List (YNode × YNode)) : (keys es).isSome ↔ ∀ e ∈ es, ∃ s b, e.1 = .scalar s b := by
  induction es with
  | nil => simp [keys]
  | cons e es ih =>
    obtain ⟨k, v⟩ := e
    match k with
    | .scalar s true => simp [keys, ih]
    | .scalar s false => simp [keys, ih]
    | .seq l => simp [keys]
    | .map l => simp [keys]

theorem mem_keys {es : List (YNode × YNode)} {fs : List (Str × YNode)} (h : keys es = some fs) (k : Str) (v : YNode) :
    (k, v) ∈ fs ↔ (YNode.scalar k false, v) ∈ es := by
  induction es generalizing fs with
  | nil =>
    cases h
    simp
  | cons e es ih =>
    obtain ⟨k', v'⟩ := e
    match k' with
    | .scalar s true =>
      rw [ih h]
      simp
    | .scalar s false =>
      simp only [keys, Option.map_eq_some_iff] at h
      obtain ⟨gs, hg, rfl⟩ := h
      simp [ih hg]
    | .seq l => cases h
    | .map l => cases h

theorem keys_nodup {es : List (YNode × YNode)} {fs : List (Str × YNode)} (h : keys es = some fs) (hn : (es.map ykey).Nodup) :
    (fs.map Prod.fst).Nodup := by
  induction es generalizing fs with
  | nil =>
    cases h
    exact List.nodup_nil
  | cons e es ih =>
    obtain ⟨k', v'⟩ := e
    rw [List.map_cons, List.nodup_cons] at hn
    match k' with
    | .scalar s true => exact ih h hn.2
    | .scalar s false =>
      simp only [keys, Option.map_eq_some_iff] at h
      obtain ⟨gs, hg, rfl⟩ := h
      rw [List.map_cons, List.nodup_cons]
      refine ⟨fun hm => hn.1 ?_, ih hg hn.2⟩
      obtain ⟨⟨k, w⟩, hx, rfl⟩ := List.mem_map.1 hm
      exact List.mem_map.2 ⟨_, (mem_keys hg _ _).1 hx, rfl⟩
    | .seq l => cases h
    | .map l => cases h

theorem duplicate_iff {es : List (YNode × YNode)} (h : ∀ e ∈ es, ∃ s b, e.1 = YNode.scalar s b) :
    duplicate es = false ↔ (es.map ykey).Nodup := by
  induction es with
  | nil => simp [duplicate]
  | cons e es ih =>
    rw [duplicate, Bool.or_eq_false_iff, List.map_cons, List.nodup_cons, ih fun x hx => h x (by simp [hx])]
    refine and_congr ?_ Iff.rfl
    obtain ⟨s, b, he⟩ := h e (by simp)
    rw [List.any_eq_false, List.mem_map]
    constructor
    · rintro hx ⟨x, hx', e'⟩
      apply hx x hx'
      obtain ⟨t, b', hx''⟩ := h x (by simp [hx'])
      simp only [ykey, he, hx''] at e' ⊢
      simp [sameKey, e']
    · intro hx x hx' e'
      apply hx
      refine ⟨x, hx', ?_⟩
      obtain ⟨t, b', hx''⟩ := h x (by simp [hx'])
      simp only [ykey, he, hx''] at e' ⊢
      simp [sameKey] at e'
      exact e'.symm

theorem fields_isSome (n : YNode) : (fields n).isSome ↔ YNull n ∨ ∃ es, n = .map es ∧ YKeys es := by
  match n with
  | .scalar s true => simp [fields, YNull]
  | .scalar s false => simp [fields, YNull]
  | .seq l => simp [fields, YNull]
  | .map es =>
    simp only [fields, YNull, YNode.map.injEq, exists_eq_left', reduceCtorEq, exists_false, false_or]
    unfold YKeys
    by_cases hd : duplicate es
    · rw [if_pos hd]
      simp only [Option.isSome_none, Bool.false_eq_true, false_iff]
      rintro ⟨h1, h2⟩
      rw [(duplicate_iff h1).2 h2] at hd
      cases hd
    · rw [if_neg hd, keys_isSome]
      simp only [Bool.not_eq_true] at hd
      exact ⟨fun h => ⟨h, (duplicate_iff h).1 hd⟩, fun h => h.1⟩

theorem mem_fields {n : YNode} {fs : List (Str × YNode)} (h : fields n = some fs) (k : Str) (v : YNode) :
    (k, v) ∈ fs ↔ YEntry n k v := by
  match n with
  | .scalar s true =>
    cases h
    simp [YEntry]
  | .scalar s false => cases h
  | .seq l => cases h
  | .map es =>
    rw [fields] at h
    split at h
    · cases h
    · rw [mem_keys h]
      simp [YEntry]

theorem fields_nodup {n : YNode} {fs : List (Str × YNode)} (h : fields n = some fs) : (fs.map Prod.fst).Nodup := by
  match n with
  | .scalar s true =>
    cases h
    exact List.nodup_nil
  | .scalar s false => cases h
  | .seq l => cases h
  | .map es =>
    have hs := (fields_isSome (.map es)).1 (by rw [h]; rfl)
    rw [fields] at h
    split at h
    · cases h
    · obtain ⟨s, e⟩ | ⟨es', e, hk⟩ := hs
      · cases e
      · cases e
        exact keys_nodup h hk.2

theorem lookup_mem {α : Type} {fs : List (Str × α)} (hn : (fs.map Prod.fst).Nodup) (k : Str) (v : α) :
    fs.lookup k = some v ↔ (k, v) ∈ fs := by
  induction fs with
  | nil => simp
  | cons x fs ih =>
    obtain ⟨k', v'⟩ := x
    rw [List.map_cons, List.nodup_cons] at hn
    rw [List.lookup_cons]
    by_cases hk : k = k'
    · subst hk
      simp only [BEq.rfl, Option.some.injEq, List.mem_cons, Prod.mk.injEq, true_and]
      refine ⟨fun h => .inl h.symm, fun h => ?_⟩
      rcases h with h | h
      · exact h.symm
      · exact absurd (List.mem_map.2 ⟨_, h, rfl⟩) hn.1
    · rw [beq_eq_false_iff_ne.2 hk]
      simp [ih hn.2, hk]

theorem at_entry {n : YNode} {fs : List (Str × YNode)} (h : fields n = some fs) {k : Str} {v : YNode} (he : YEntry n k v) :
    at_ fs k = v := by
  unfold at_
  rw [(lookup_mem (fields_nodup h) k v).2 ((mem_fields h k v).2 he)]
  rfl

theorem at_cases {n : YNode} {fs : List (Str × YNode)} (h : fields n = some fs) (k : Str) :
    YEntry n k (at_ fs k) ∨ (∀ v, ¬ YEntry n k v) ∧ at_ fs k = null := by
  unfold at_
  cases hl : fs.lookup k with
  | none =>
    refine .inr ⟨fun v hv => ?_, rfl⟩
    rw [(lookup_mem (fields_nodup h) k v).2 ((mem_fields h k v).2 hv)] at hl
    cases hl
  | some v => exact .inl ((mem_fields h k v).1 ((lookup_mem (fields_nodup h) k v).1 hl))

theorem entry_unique {n : YNode} {fs : List (Str × YNode)} (h : fields n = some fs) {k : Str} {v w : YNode} (hv : YEntry n k v)
    (hw : YEntry n k w) : v = w := by
  rw [← at_entry h hv, ← at_entry h hw]

/-- The shape of a field, for decoders that accept null. -/
theorem field_shape {α : Type} {d : YNode → Option α} {P : YNode → Prop} (hd : ∀ n, (d n).isSome ↔ P n) (h0 : P null) {n : YNode}
    {fs : List (Str × YNode)} (h : fields n = some fs) (k : Str) : (d (at_ fs k)).isSome ↔ ∀ v, YEntry n k v → P v := by
  rw [hd]
  rcases at_cases h k with he | ⟨he, e⟩
  · constructor
    · intro hp v hv
      rw [← at_entry h hv]
      exact hp
    · intro hp
      exact hp _ he
  · rw [e]
    exact ⟨fun _ v hv => absurd hv (he v), fun _ => h0⟩

theorem text_isSome (n : YNode) : (text n).isSome ↔ YIsText n := by
  match n with
  | .scalar s true => simp [text, YIsText]
  | .scalar s false => simp [text, YIsText]
  | .seq l => simp [text, YIsText]
  | .map es => simp [text, YIsText]

theorem null_text : YIsText null := ⟨_, _, rfl⟩
theorem null_null : YNull null := ⟨_, rfl⟩

/-- A path goes through the field. -/
theorem at_step {n : YNode} {fs : List (Str × YNode)} (h : fields n = some fs) (k : Str) (ks : List Str) (w : YNode) (hw : ¬ YNull w) :
    YAt n (k :: ks) w ↔ YAt (at_ fs k) ks w := by
  constructor
  · intro ha
    cases ha with
    | step he ha =>
      rw [at_entry h he]
      exact ha
  · intro ha
    rcases at_cases h k with he | ⟨_, e⟩
    · exact .step he ha
    · rw [e] at ha
      cases ha with
      | here => exact absurd null_null hw
      | step he =>
        obtain ⟨_, e, _⟩ := he
        cases e

theorem text_step {n : YNode} {fs : List (Str × YNode)} (h : fields n = some fs) (k : Str) (ks : List Str) (s : Str) :
    YText n (k :: ks) s ↔ YText (at_ fs k) ks s := by
  have hw : ∀ t, ¬ YNull (.scalar t false) := by
    rintro t ⟨u, e⟩
    cases e
  unfold YText
  rw [at_step h k ks _ (hw s)]
  simp only [fun t => at_step h k ks _ (hw t)]

theorem at_nil {n w : YNode} : YAt n [] w ↔ n = w := by
  constructor
  · intro h
    cases h
    rfl
  · rintro rfl
    exact .here _

theorem text_here {n : YNode} {s : Str} (h : text n = some s) (t : Str) : YText n [] t ↔ t = s := by
  unfold YText
  simp only [at_nil]
  match n with
  | .scalar v true =>
    cases h
    simp
  | .scalar v false =>
    cases h
    simp [eq_comm]
  | .seq l => cases h
  | .map es => cases h

theorem text_field {n : YNode} {fs : List (Str × YNode)} (h : fields n = some fs) {k s : Str} (ht : text (at_ fs k) = some s) (t : Str) :
    YText n [k] t ↔ t = s := by
  rw [text_step h, text_here ht]

theorem values_isSome {α : Type} (d : YNode → Option α) (fs : List (Str × YNode)) :
    (values d fs).isSome ↔ ∀ x ∈ fs, (d x.2).isSome := by
  induction fs with
  | nil => simp [values]
  | cons x fs ih =>
    obtain ⟨k, v⟩ := x
    simp only [values, List.mem_cons, forall_eq_or_imp, ← ih]
    cases d v <;> cases values d fs <;> simp

theorem mem_values {α : Type} {d : YNode → Option α} {fs : List (Str × YNode)} {m : SMap α} (h : values d fs = some m) (k : Str)
    (a : α) : (k, a) ∈ m ↔ ∃ v, (k, v) ∈ fs ∧ d v = some a := by
  induction fs generalizing m with
  | nil =>
    cases h
    simp
  | cons x fs ih =>
    obtain ⟨k', v'⟩ := x
    simp only [values] at h
    cases hd : d v' with
    | none =>
      rw [hd] at h
      cases h
    | some b =>
      cases hv : values d fs with
      | none =>
        rw [hd, hv] at h
        cases h
      | some m' =>
        rw [hd, hv] at h
        cases h
        simp only [List.mem_cons, Prod.mk.injEq, ih hv]
        constructor
        · rintro (⟨rfl, rfl⟩ | ⟨v, hm, hv⟩)
          · exact ⟨v', .inl ⟨rfl, rfl⟩, hd⟩
          · exact ⟨v, .inr hm, hv⟩
        · rintro ⟨v, ⟨rfl, rfl⟩ | hm, hv⟩
          · rw [hd] at hv
            cases hv
            exact .inl ⟨rfl, rfl⟩
          · exact .inr ⟨v, hm, hv⟩

theorem values_keys {α : Type} {d : YNode → Option α} {fs : List (Str × YNode)} {m : SMap α} (h : values d fs = some m) :
    m.map Prod.fst = fs.map Prod.fst := by
  induction fs generalizing m with
  | nil =>
    cases h
    rfl
  | cons x fs ih =>
    obtain ⟨k', v'⟩ := x
    simp only [values] at h
    cases hd : d v' with
    | none =>
      rw [hd] at h
      cases h
    | some b =>
      cases hv : values d fs with
      | none =>
        rw [hd, hv] at h
        cases h
      | some m' =>
        rw [hd, hv] at h
        cases h
        simp [ih hv]

theorem mapOf_isSome {α : Type} {d : YNode → Option α} {P : YNode → Prop} (hd : ∀ n, (d n).isSome ↔ P n) (n : YNode) :
    (mapOf d n).isSome ↔ YIsMapOf P n := by
  unfold mapOf YIsMapOf
  cases hf : fields n with
  | none =>
    have := fields_isSome n
    rw [hf] at this
    simp only [Option.bind_none, Option.isSome_none, Bool.false_eq_true, false_iff] at this ⊢
    rintro (h | ⟨es, e, hk, _⟩)
    · exact this (.inl h)
    · exact this (.inr ⟨es, e, hk⟩)
  | some fs =>
    have := (fields_isSome n).1 (by rw [hf]; rfl)
    rw [Option.bind_some, values_isSome]
    simp only [hd]
    constructor
    · intro h
      rcases this with h' | ⟨es, e, hk⟩
      · exact .inl h'
      · exact .inr ⟨es, e, hk, fun k v hv => h (k, v) ((mem_fields hf k v).2 hv)⟩
    · rintro (⟨s, rfl⟩ | ⟨es, e, hk, h⟩) x hx
      · cases hf
        cases hx
      · exact h x.1 x.2 ((mem_fields hf _ _).1 hx)

theorem mem_mapOf {α : Type} {d : YNode → Option α} {n : YNode} {m : SMap α} (h : mapOf d n = some m) (k : Str) (a : α) :
    (k, a) ∈ m ↔ ∃ v, YEntry n k v ∧ d v = some a := by
  obtain ⟨fs, hf, h⟩ := Option.bind_eq_some_iff.1 h
  rw [mem_values h]
  simp only [mem_fields hf]

theorem mapOf_nodup {α : Type} {d : YNode → Option α} {n : YNode} {m : SMap α} (h : mapOf d n = some m) :
    (m.map Prod.fst).Nodup := by
  obtain ⟨fs, hf, h⟩ := Option.bind_eq_some_iff.1 h
  rw [values_keys h]
  exact fields_nodup hf

theorem null_mapOf (P : YNode → Prop) : YIsMapOf P null := .inl null_null
theorem null_listOf (P : YNode → Prop) : YIsListOf P null := .inl null_null
theorem null_struct (l : List (Str × (YNode → Prop))) : YIsStruct l null := .inl null_null

theorem items_isSome {α : Type} {d : YNode → Option α} {P : YNode → Prop} (hd : ∀ n, (d n).isSome ↔ P n) (l : List YNode) :
    (items d l).isSome ↔ ∀ v ∈ l, ¬ YNull v → P v := by
  induction l with
  | nil => simp [items]
  | cons n l ih =>
    have step : ∀ n, ¬ YNull n → items d (n :: l) = (match d n, items d l with | some a, some l => some (a :: l) | _, _ => none) := by
      intro n hn
      match n with
      | .scalar s true => exact absurd ⟨s, rfl⟩ hn
      | .scalar s false => rfl
      | .seq l => rfl
      | .map es => rfl
    by_cases hn : YNull n
    · obtain ⟨s, rfl⟩ := hn
      rw [items, ih]
      simp only [List.mem_cons, forall_eq_or_imp]
      exact ⟨fun h => ⟨fun h' => absurd ⟨s, rfl⟩ h', h⟩, fun h => h.2⟩
    · rw [step n hn]
      simp only [List.mem_cons, forall_eq_or_imp, hn, not_false_eq_true, true_implies]
      rw [← ih, ← hd]
      cases d n <;> cases items d l <;> simp

theorem listOf_isSome {α : Type} {d : YNode → Option α} {P : YNode → Prop} (hd : ∀ n, (d n).isSome ↔ P n) (n : YNode) :
    (listOf d n).isSome ↔ YIsListOf P n := by
  unfold YIsListOf
  match n with
  | .scalar s true => simp [listOf, YNull]
  | .scalar s false => simp [listOf, YNull]
  | .seq l =>
    rw [listOf, items_isSome hd]
    simp [YNull]
  | .map es => simp [listOf, YNull]

/-- The items and what they are decoded to. -/
theorem items_each {α : Type} {d : YNode → Option α} {l : List YNode} {r : List α} (h : items d l = some r) :
    Each (fun v a => d v = some a) (l.filter fun v => match v with | .scalar _ true => false | _ => true) r := by
  induction l generalizing r with
  | nil =>
    cases h
    exact .nil
  | cons n l ih =>
    have step : ∀ n, ¬ YNull n → items d (n :: l) = some r → ∃ a r', r = a :: r' ∧ d n = some a ∧ items d l = some r' := by
      intro n hn h
      have h : (match d n, items d l with | some a, some l => some (a :: l) | _, _ => none) = some r := by
        rw [← h]
        match n with
        | .scalar s true => exact absurd ⟨s, rfl⟩ hn
        | .scalar s false => rfl
        | .seq l => rfl
        | .map es => rfl
      cases hd : d n with
      | none =>
        rw [hd] at h
        cases h
      | some a =>
        cases hl : items d l with
        | none =>
          rw [hd, hl] at h
          cases h
        | some r' =>
          rw [hd, hl] at h
          cases h
          exact ⟨a, r', rfl, rfl, rfl⟩
    match n with
    | .scalar s true => exact ih h
    | .scalar s false =>
      obtain ⟨a, r', rfl, hd, hl⟩ := step _ (by rintro ⟨s, e⟩; cases e) h
      exact .cons hd (ih hl)
    | .seq l' =>
      obtain ⟨a, r', rfl, hd, hl⟩ := step _ (by rintro ⟨s, e⟩; cases e) h
      exact .cons hd (ih hl)
    | .map es =>
      obtain ⟨a, r', rfl, hd, hl⟩ := step _ (by rintro ⟨s, e⟩; cases e) h
      exact .cons hd (ih hl)

/-- The list under a key. -/
theorem listOf_field {α : Type} {d : YNode → Option α} {n : YNode} {fs : List (Str × YNode)} (h : fields n = some fs) {k : Str}
    {r : List α} (hl : listOf d (at_ fs k) = some r) : ∃ l, YItems n [k] l ∧ Each (fun v a => d v = some a) l r := by
  have hw : ∀ all, YAt n [k] (.seq all) ↔ at_ fs k = .seq all := by
    intro all
    rw [at_step h k [] _ (by rintro ⟨s, e⟩; cases e), at_nil]
  unfold YItems
  simp only [hw]
  generalize at_ fs k = v at hl
  match v with
  | .scalar s true =>
    cases hl
    exact ⟨[], .inr ⟨by simp, rfl⟩, .nil⟩
  | .scalar s false => cases hl
  | .seq l => exact ⟨_, .inl ⟨l, rfl, rfl⟩, items_each hl⟩
  | .map es => cases hl

/-- Structs: the fields have their shapes. -/
theorem struct_isSome {n : YNode} {shapes : List (Str × (YNode → Prop))} {α : Type} (r : List (Str × YNode) → Option α)
    (h : ∀ fs, fields n = some fs → ((r fs).isSome ↔ ∀ x ∈ shapes, ∀ v, YEntry n x.1 v → x.2 v)) :
    ((fields n).bind r).isSome ↔ YIsStruct shapes n := by
  unfold YIsStruct
  cases hf : fields n with
  | none =>
    have := fields_isSome n
    rw [hf] at this
    simp only [Option.bind_none, Option.isSome_none, Bool.false_eq_true, false_iff] at this ⊢
    rintro (h | ⟨es, e, hk, _⟩)
    · exact this (.inl h)
    · exact this (.inr ⟨es, e, hk⟩)
  | some fs =>
    have := (fields_isSome n).1 (by rw [hf]; rfl)
    rw [Option.bind_some, h fs hf]
    constructor
    · intro h
      rcases this with h' | ⟨es, e, hk⟩
      · exact .inl h'
      · exact .inr ⟨es, e, hk, h⟩
    · rintro (⟨s, rfl⟩ | ⟨es, e, hk, h⟩)
      · intro x _ v hv
        obtain ⟨_, e, _⟩ := hv
        cases e
      · exact h

end Osv.Yaml
