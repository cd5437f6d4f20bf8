import Verif.Lemmas.Base64
import Verif.Lemmas.JsonText
import Verif.Lemmas.JsonTyped
import Verif.Lemmas.ZipCache
import Verif.Model.Diagnostics
/-! # Reading the file of a cached archive -/
namespace Osv
open Spec
namespace CacheFile

theorem digit_char {c : Char} (h : Str.isDigit c = true) : ∃ i : Fin 10, c = Char.ofNat (48 + i.val) ∧ c.toNat - 48 = i.val := by
  simp only [Str.isDigit, Bool.and_eq_true, decide_eq_true_eq] at h
  have h1 : 48 ≤ c.toNat := h.1
  have h2 : c.toNat ≤ 57 := h.2
  refine ⟨⟨c.toNat - 48, by omega⟩, ?_, rfl⟩
  have : 48 + (c.toNat - 48) = c.toNat := by omega
  dsimp only
  rw [this, Char.ofNat_toNat]

theorem value_ge (l : Str) (n : Nat) : n ≤ l.foldl (fun n c => n * 10 + (c.toNat - 48)) n := by
  induction l generalizing n with
  | nil => exact Nat.le_refl n
  | cons c l ih => exact Nat.le_trans (by omega) (ih (n * 10 + (c.toNat - 48)))

/-- A number literal of digits only does not begin with a zero unless it is one. -/
theorem number_digits {lit : Str} (h : JNumber lit) (hd : lit.all Str.isDigit = true) : lit = g!"0" ∨ lit.head? ≠ some '0' := by
  obtain ⟨sign, int, frac, exp, rfl, hs, hi, hf, he⟩ := h
  simp only [List.all_append, Bool.and_eq_true] at hd
  have hs' : sign = [] := by
    rcases hs with rfl | rfl
    · rfl
    · exact absurd hd.1.1.1 (by decide)
  have hf' : frac = [] := by
    rcases hf with rfl | ⟨d, -, rfl⟩
    · rfl
    · exact absurd hd.1.2 (by simp [Str.isDigit])
  have he' : exp = [] := by
    rcases he with rfl | ⟨e, sg, d, he, -, -, rfl⟩
    · rfl
    · rcases he with rfl | rfl <;> exact absurd hd.2 (by simp [Str.isDigit])
  subst hs' hf' he'
  simp only [List.nil_append, List.append_nil]
  rcases hi with rfl | hi
  · exact .inl rfl
  · exact .inr hi.2

theorem byte_literal {lit : Str} (h : JNumber lit) :
    (lit ≠ [] ∧ lit.all Str.isDigit = true ∧ lit.foldl (fun n c => n * 10 + (c.toNat - 48)) 0 < 256) ↔
      ∃ b : UInt8, lit = decimal b.toNat := by
  constructor
  · rintro ⟨h0, hd, hv⟩
    have hz := number_digits h hd
    suffices hs : lit = decimal (lit.foldl (fun n c => n * 10 + (c.toNat - 48)) 0) by
      refine ⟨UInt8.ofNat (lit.foldl (fun n c => n * 10 + (c.toNat - 48)) 0), ?_⟩
      rw [UInt8.toNat_ofNat']
      rw [Nat.mod_eq_of_lt hv]
      exact hs
    match lit, h0, hd, hv, hz with
    | [a], _, hd, hv, hz =>
      simp only [List.all_cons, List.all_nil, Bool.and_true] at hd
      obtain ⟨i, ha, hi⟩ := digit_char hd
      simp only [List.foldl_cons, List.foldl_nil, hi]
      subst ha
      have : ∀ i : Fin 10, [Char.ofNat (48 + i.val)] = decimal (0 * 10 + i.val) := by decide +kernel
      exact this i
    | [a, b], _, hd, hv, hz =>
      simp only [List.all_cons, List.all_nil, Bool.and_true, Bool.and_eq_true] at hd
      obtain ⟨i, ha, hi⟩ := digit_char hd.1
      obtain ⟨j, hb, hj⟩ := digit_char hd.2
      simp only [List.foldl_cons, List.foldl_nil, hi, hj]
      subst ha hb
      have : ∀ i j : Fin 10, Char.ofNat (48 + i.val) ≠ '0' →
          [Char.ofNat (48 + i.val), Char.ofNat (48 + j.val)] = decimal ((0 * 10 + i.val) * 10 + j.val) := by decide +kernel
      refine this i j fun e => ?_
      rcases hz with hz | hz
      · simp at hz
      · exact hz (by rw [List.head?_cons, e])
    | [a, b, c], _, hd, hv, hz =>
      simp only [List.all_cons, List.all_nil, Bool.and_true, Bool.and_eq_true] at hd
      obtain ⟨i, ha, hi⟩ := digit_char hd.1
      obtain ⟨j, hb, hj⟩ := digit_char hd.2.1
      obtain ⟨k, hc, hk⟩ := digit_char hd.2.2
      simp only [List.foldl_cons, List.foldl_nil, hi, hj, hk]
      subst ha hb hc
      have : ∀ i j k : Fin 10, Char.ofNat (48 + i.val) ≠ '0' →
          [Char.ofNat (48 + i.val), Char.ofNat (48 + j.val), Char.ofNat (48 + k.val)] =
            decimal (((0 * 10 + i.val) * 10 + j.val) * 10 + k.val) := by decide +kernel
      refine this i j k fun e => ?_
      rcases hz with hz | hz
      · simp at hz
      · exact hz (by rw [List.head?_cons, e])
    | a :: b :: c :: d :: r, _, hd, hv, hz =>
      exfalso
      simp only [List.all_cons, Bool.and_eq_true] at hd
      obtain ⟨i, ha, hi⟩ := digit_char hd.1
      have hne : i.val ≠ 0 := by
        intro e
        rcases hz with hz | hz
        · cases hz
        · rw [e] at ha
          exact hz (by rw [List.head?_cons, ha])
      simp only [List.foldl_cons] at hv
      have := value_ge r ((((0 * 10 + (a.toNat - 48)) * 10 + (b.toNat - 48)) * 10 + (c.toNat - 48)) * 10 + (d.toNat - 48))
      omega
  · rintro ⟨b, rfl⟩
    have : ∀ k : Fin 256, decimal k.val ≠ [] ∧ (decimal k.val).all Str.isDigit = true ∧
        (decimal k.val).foldl (fun n c => n * 10 + (c.toNat - 48)) 0 < 256 := by decide +kernel
    exact this ⟨b.toNat, b.toNat_lt⟩

theorem jsonByte_decimal (b : UInt8) : jsonByte (.num (decimal b.toNat)) = b := by
  have : ∀ k : Fin 256, (jsonByte (.num (decimal k.val))).toNat = k.val := by decide +kernel
  exact UInt8.toNat_inj.1 (this ⟨b.toNat, b.toNat_lt⟩)

theorem decimal_inj {a b : UInt8} (h : decimal a.toNat = decimal b.toNat) : a = b := by
  rw [← jsonByte_decimal a, h, jsonByte_decimal]

theorem jsonByte_other (v : JVal) (hn : ∀ lit, v = .num lit → JNumber lit) (h : ∀ x : UInt8, v ≠ .num (decimal x.toNat)) :
    jsonByte v = 0 := by
  cases v with
  | num lit =>
    have hb := byte_literal (hn lit rfl)
    unfold jsonByte
    dsimp only
    split
    · rename_i h1
      split
      · rename_i h2
        obtain ⟨b, hb⟩ := hb.1 ⟨h1.1, h1.2, h2⟩
        exact absurd (by rw [hb]) (h b)
      · rfl
    · rfl
  | _ => rfl

/-- The byte that a value is read as. -/
theorem byte_iff (v : JVal) (hn : ∀ lit, v = .num lit → JNumber lit) (b : UInt8) : jsonByte v = b ↔ ByteIs b v := by
  constructor
  · rintro rfl
    by_cases h : ∃ x : UInt8, v = .num (decimal x.toNat)
    · obtain ⟨x, rfl⟩ := h
      left
      rw [jsonByte_decimal]
    · right
      have h' : ∀ x : UInt8, v ≠ .num (decimal x.toNat) := fun x e => h ⟨x, e⟩
      exact ⟨jsonByte_other v hn h', h'⟩
  · rintro (rfl | ⟨rfl, h⟩)
    · exact jsonByte_decimal b
    · exact jsonByte_other v hn h

theorem byteErr_iff (v : JVal) (hn : ∀ lit, v = .num lit → JNumber lit) :
    byteErr v = false ↔ v = .null ∨ ∃ b : UInt8, v = .num (decimal b.toNat) := by
  cases v with
  | num lit =>
    have hb := byte_literal (hn lit rfl)
    simp only [byteErr, Bool.not_eq_false', Bool.and_eq_true, decide_eq_true_eq, reduceCtorEq, false_or, JVal.num.injEq, ← hb, and_assoc]
  | _ => simp [byteErr]

theorem elems_text (L : Layout) : (l : JList) → (s : Str) → JElems L l s → ∀ v ∈ l.toList, ∃ t, JText L v t
  | .nil, _, _, v, hv => by cases hv
  | .cons w l, s, h, v, hv => by
    obtain ⟨f, g, a, b, -, -, h1, h2, -⟩ := h
    rw [JList.toList, List.mem_cons] at hv
    rcases hv with rfl | hv
    · exact ⟨a, h1⟩
    · exact elems_text L l b h2 v hv

theorem membs_text (L : Layout) : (m : JMembers) → (s : Str) → JMembs L m s → ∀ x ∈ m.toList, ∃ t, JText L x.2 t
  | .nil, _, _, v, hv => by cases hv
  | .cons k w m, s, h, x, hx => by
    obtain ⟨f, g, q, h, i, a, b, -, -, -, -, -, h1, h2, -⟩ := h
    rw [JMembers.toList, List.mem_cons] at hx
    rcases hx with rfl | hx
    · exact ⟨a, h1⟩
    · exact membs_text L m b h2 x hx

/-- Every number in a value that has a text is a number. -/
theorem numbers {v : JVal} {lit : Str} (h : NumberIn lit v) {L : Layout} {s : Str} (ht : JText L v s) : JNumber lit := by
  induction h generalizing s with
  | num => exact ht.1
  | @elem l v hv hn ih =>
    cases l with
    | nil => cases hv
    | cons w l =>
      obtain ⟨g, a, b, -, h1, h2, -⟩ := ht
      rw [JList.toList, List.mem_cons] at hv
      rcases hv with rfl | hv
      · exact ih h1
      · obtain ⟨t, ht⟩ := elems_text L l b h2 v hv
        exact ih ht
  | @member m k v hv hn ih =>
    cases m with
    | nil => cases hv
    | cons k' w m =>
      obtain ⟨g, q, h, i, a, b, -, -, -, -, h1, h2, -⟩ := ht
      rw [Member, JMembers.toList, List.mem_cons] at hv
      rcases hv with hv | hv
      · cases hv
        exact ih h1
      · obtain ⟨t, ht⟩ := membs_text L m b h2 _ hv
        exact ih ht

theorem parsed_numbers {text : Str} {v : JVal} (h : Json.parse text = some v) {lit : Str} (hn : NumberIn lit v) : JNumber lit := by
  obtain ⟨g, a, b, -, ht, -⟩ := JText.doc_of_parse h
  exact numbers hn ht

theorem fold_other {α : Type} (get : Cache → α) (f : Str)
    (hother : ∀ c m, (Json.fieldOf cacheFields m.1).getD [] ≠ f → get (c.setField m) = get c)
    (l : List (Str × JVal)) (h : ∀ x ∈ l, (Json.fieldOf cacheFields x.1).getD [] ≠ f) (c : Cache) :
    get (l.foldl Cache.setField c) = get c := by
  induction l generalizing c with
  | nil => rfl
  | cons x l ih =>
    rw [List.foldl_cons, ih (fun y hy => h y (by simp [hy])), hother c x (h x (by simp))]

/-- A field has what the member with its name puts there. -/
theorem fold_field {α : Type} (get : Cache → α) (f : Str) (hf : f ∈ cacheFields) (upd : JVal → α → α)
    (hself : ∀ c v, get (c.setField (f, v)) = upd v (get c))
    (hother : ∀ c m, (Json.fieldOf cacheFields m.1).getD [] ≠ f → get (c.setField m) = get c)
    (m : JMembers) (hp : PlainKeys cacheFields m) (c : Cache) :
    (∃ v, Member m f v ∧ get (m.toList.foldl Cache.setField c) = upd v (get c)) ∨
    ((∀ v, ¬ Member m f v) ∧ get (m.toList.foldl Cache.setField c) = get c) := by
  have hne : f ≠ [] := by
    rintro rfl
    exact absurd hf (by decide)
  have hkey : ∀ x ∈ m.toList, (Json.fieldOf cacheFields x.1).getD [] = f → x.1 = f := by
    intro x hx e
    by_cases hk : x.1 ∈ cacheFields
    · rw [Json.fieldOf_self hk] at e
      exact e
    · rw [Json.fieldOf_none (hp.2 x hx) hk] at e
      exact absurd e.symm hne
  unfold Member
  have hn : (m.toList.map (·.1)).Nodup := hp.1
  clear hp
  generalize m.toList = l at *
  clear m
  induction l generalizing c with
  | nil => exact .inr ⟨fun _ h => (by cases h), rfl⟩
  | cons x l ih =>
    obtain ⟨k, v⟩ := x
    simp only [List.map_cons, List.nodup_cons] at hn
    rw [List.foldl_cons]
    by_cases hk : k = f
    · subst hk
      left
      refine ⟨v, by simp, ?_⟩
      rw [fold_other get k hother l _ _, hself]
      intro y hy e
      have := hkey y (by simp [hy]) e
      exact hn.1 (by rw [← this]; exact List.mem_map_of_mem hy)
    · have ho := hother c (k, v) fun e => hk (hkey (k, v) (by simp) e)
      rcases ih (c := c.setField (k, v)) (hkey := fun y hy => hkey y (by simp [hy])) (hn := hn.2) with ⟨w, hw, e⟩ | ⟨hw, e⟩
      · exact .inl ⟨w, by simp [hw], by rw [e, ho]⟩
      · refine .inr ⟨fun w hm => ?_, by rw [e, ho]⟩
        rcases List.mem_cons.1 hm with e | hm
        · injection e with e1 e2
          exact hk e1.symm
        · exact hw w hm

theorem loose {get : Cache → Str} {f : Str} (hf : f ∈ cacheFields)
    (hself : ∀ (c : Cache) (v : JVal), get (c.setField (f, v)) = match v with | .str s => s | _ => get c)
    (hother : ∀ c m, (Json.fieldOf cacheFields m.1).getD [] ≠ f → get (c.setField m) = get c)
    (h0 : get {} = []) (m : JMembers) (hp : PlainKeys cacheFields m) : LooseText m f (get (m.toList.foldl Cache.setField {})) := by
  rcases fold_field get f hf (fun v old => match v with | .str s => s | _ => old) hself hother m hp {} with ⟨v, hv, e⟩ | ⟨hv, e⟩
  · rw [e]
    cases v with
    | str s => exact .inl hv
    | _ =>
      refine .inr ⟨h0, fun t ht => ?_⟩
      have := Json.key_unique hp.1 ht hv
      cases this
  · exact .inr ⟨e.trans h0, fun t ht => hv _ ht⟩

theorem each_map {α β : Type} {R : α → β → Prop} (f : β → α) (l : List β) (h : ∀ x ∈ l, R (f x) x) : Each R (l.map f) l := by
  induction l with
  | nil => exact .nil
  | cons x l ih => exact .cons (h x (by simp)) (ih fun y hy => h y (by simp [hy]))

/-- The object that was read says what the cache then is. -/
theorem says (m : JMembers) (hp : PlainKeys cacheFields m) (hn : ∀ lit, NumberIn lit (.obj m) → JNumber lit) :
    CacheSays m (m.toList.foldl Cache.setField {}) := by
  have k1 : (Json.fieldOf cacheFields g!"url").getD [] = g!"url" := by decide
  have k2 : (Json.fieldOf cacheFields g!"etag").getD [] = g!"etag" := by decide
  have k3 : (Json.fieldOf cacheFields g!"date").getD [] = g!"date" := by decide
  have k4 : (Json.fieldOf cacheFields g!"body").getD [] = g!"body" := by decide
  constructor
  · refine loose (get := Cache.url) (by decide) ?_ ?_ rfl m hp
    · intro c v
      cases v <;> simp [Cache.setField, k1]
    · intro c x hx
      unfold Cache.setField
      dsimp only
      rw [if_neg hx]
      repeat' split
      all_goals rfl
  · refine loose (get := Cache.etag) (by decide) ?_ ?_ rfl m hp
    · intro c v
      cases v <;> simp [Cache.setField, k2]
    · intro c x hx
      unfold Cache.setField
      dsimp only
      rw [if_neg hx]
      repeat' split
      all_goals rfl
  · refine loose (get := Cache.date) (by decide) ?_ ?_ rfl m hp
    · intro c v
      cases v <;> simp [Cache.setField, k3]
    · intro c x hx
      unfold Cache.setField
      dsimp only
      rw [if_neg hx]
      repeat' split
      all_goals rfl
  · have := fold_field Cache.body g!"body" (by decide) (fun v old => match v with
      | .str s => (Base64.decode s).getD old
      | .null => []
      | .arr l => l.toList.map jsonByte
      | _ => old) (by
        intro c v
        cases v with
        | str s => cases hd : Base64.decode s <;> simp [Cache.setField, k4, hd]
        | _ => simp [Cache.setField, k4]) (by
        intro c x hx
        unfold Cache.setField
        dsimp only
        rw [if_neg (c := _ = g!"body") hx]
        repeat' split
        all_goals rfl) m hp {}
    have none : ∀ v, Member m g!"body" v → (∀ s b, v = .str s → ¬ Base64Text s b) → (∀ l, v ≠ .arr l) →
        (∀ s b, Member m g!"body" (.str s) → ¬ Base64Text s b) ∧ ∀ l, ¬ Member m g!"body" (.arr l) := by
      intro v hv h1 h2
      exact ⟨fun s b hs => h1 s b (Json.key_unique hp.1 hv hs), fun l hl => h2 l (Json.key_unique hp.1 hv hl)⟩
    rcases this with ⟨v, hv, e⟩ | ⟨hv, e⟩
    · rw [e]
      cases v with
      | str s =>
        dsimp only
        cases hd : Base64.decode s with
        | some b => exact .inl ⟨s, hv, (Base64.decode_iff s b).1 hd⟩
        | none =>
          refine .inr (.inr ⟨rfl, none _ hv ?_ (by simp)⟩)
          intro t b e hb
          cases e
          rw [(Base64.decode_iff s b).2 hb] at hd
          cases hd
      | arr l =>
        refine .inr (.inl ⟨l, hv, each_map jsonByte _ fun x hx => ?_⟩)
        refine (byte_iff x ?_ _).1 rfl
        rintro lit rfl
        exact hn lit (.member hv (.elem hx .num))
      | _ => exact .inr (.inr ⟨rfl, none _ hv (by simp) (by simp)⟩)
    · exact .inr (.inr ⟨e, fun s b h => absurd h (hv _), fun l h => hv _ h⟩)

theorem byteIs_unique {a b : UInt8} {v : JVal} (h : ByteIs a v) (h' : ByteIs b v) : a = b := by
  rcases h with rfl | ⟨rfl, h⟩
  · rcases h' with h' | ⟨rfl, h'⟩
    · injection h' with h'
      exact decimal_inj h'
    · exact absurd rfl (h' a)
  · rcases h' with h' | ⟨rfl, h'⟩
    · exact absurd h' (h b)
    · rfl

theorem each_unique {α β : Type} {R : α → β → Prop} (hu : ∀ a b v, R a v → R b v → a = b) {l l' : List α} {m : List β} (h : Each R l m)
    (h' : Each R l' m) : l = l' := by
  induction h generalizing l' with
  | nil => cases h'; rfl
  | cons h1 _ ih =>
    cases h' with
    | cons h1' h2' => rw [hu _ _ _ h1 h1', ih h2']

theorem loose_unique {m : JMembers} (hn : DistinctKeys m) {f s t : Str} (h : LooseText m f s) (h' : LooseText m f t) : s = t := by
  rcases h with h | ⟨rfl, h⟩
  · rcases h' with h' | ⟨-, h'⟩
    · have := Json.key_unique hn h h'
      injection this
    · exact absurd h (h' s)
  · rcases h' with h' | ⟨rfl, -⟩
    · exact absurd h' (h t)
    · rfl

theorem base64_unique {s : Str} {a b : Bytes} (h : Base64Text s a) (h' : Base64Text s b) : a = b := by
  rw [← Base64.decode_iff] at h h'
  rw [h] at h'
  injection h'

/-- An object says one thing only. -/
theorem says_unique {m : JMembers} (hn : DistinctKeys m) {c c' : Cache} (h : CacheSays m c) (h' : CacheSays m c') : c = c' := by
  obtain ⟨u, e, d, b⟩ := h
  obtain ⟨u', e', d', b'⟩ := h'
  have hb : c.body = c'.body := by
    rcases b with ⟨s, hs, b⟩ | ⟨l, hl, b⟩ | ⟨b, h1, h2⟩
    · rcases b' with ⟨s', hs', b'⟩ | ⟨l', hl', b'⟩ | ⟨b', h1', h2'⟩
      · have := Json.key_unique hn hs hs'
        injection this with this
        subst this
        exact base64_unique b b'
      · cases Json.key_unique hn hs hl'
      · exact absurd b (h1' s _ hs)
    · rcases b' with ⟨s', hs', b'⟩ | ⟨l', hl', b'⟩ | ⟨b', h1', h2'⟩
      · cases Json.key_unique hn hl hs'
      · have := Json.key_unique hn hl hl'
        injection this with this
        subst this
        exact each_unique (R := ByteIs) (fun _ _ _ => byteIs_unique) b b'
      · exact absurd hl (h2' l)
    · rcases b' with ⟨s', hs', b'⟩ | ⟨l', hl', b'⟩ | ⟨b', h1', h2'⟩
      · exact absurd b' (h1 s' _ hs')
      · exact absurd hl' (h2 l')
      · rw [b, b']
  cases c
  cases c'
  simp only [Cache.mk.injEq]
  exact ⟨loose_unique hn u u', loose_unique hn e e', loose_unique hn d d', hb⟩

/-- There is no complaint about an object exactly if it has the right types. -/
theorem shape (m : JMembers) (hp : PlainKeys cacheFields m) (hn : ∀ lit, NumberIn lit (.obj m) → JNumber lit) :
    m.toList.any cacheFieldErr = false ↔ CacheShape m := by
  have k1 : (Json.fieldOf cacheFields g!"url").getD [] = g!"url" := by decide
  have k2 : (Json.fieldOf cacheFields g!"etag").getD [] = g!"etag" := by decide
  have k3 : (Json.fieldOf cacheFields g!"date").getD [] = g!"date" := by decide
  have k4 : (Json.fieldOf cacheFields g!"body").getD [] = g!"body" := by decide
  have body : ∀ v, Member m g!"body" v → (cacheFieldErr (g!"body", v) = false ↔ v = .null ∨ (∃ s b, v = .str s ∧ Base64Text s b) ∨
      ∃ l, v = .arr l ∧ ∀ x ∈ l.toList, x = .null ∨ ∃ b : UInt8, x = .num (decimal b.toNat)) := by
    intro v hv
    unfold cacheFieldErr
    dsimp only
    rw [k4, if_neg (by decide), if_pos rfl]
    cases v with
    | str s =>
      simp only [reduceCtorEq, false_or, JVal.str.injEq, false_and, exists_false, or_false]
      cases hd : Base64.decode s with
      | none =>
        simp only [Option.isNone_none, Bool.true_eq_false, false_iff]
        rintro ⟨t, b, rfl, hb⟩
        rw [(Base64.decode_iff s b).2 hb] at hd
        cases hd
      | some b => simpa using ⟨b, (Base64.decode_iff s b).1 hd⟩
    | arr l =>
      simp only [reduceCtorEq, false_or, false_and, exists_false, JVal.arr.injEq, exists_eq_left', List.any_eq_false,
        Bool.not_eq_true]
      refine forall_congr' fun x => forall_congr' fun hx => ?_
      refine byteErr_iff x ?_
      rintro lit rfl
      exact hn lit (.member hv (.elem hx .num))
    | _ => simp
  have text : ∀ f ∈ [g!"url", g!"etag", g!"date"], ∀ v, cacheFieldErr (f, v) = false ↔ IsText v := by
    intro f hf v
    simp only [List.mem_cons, List.not_mem_nil, or_false] at hf
    rcases hf with rfl | rfl | rfl
    · cases v <;> simp [cacheFieldErr, k1, IsText]
    · cases v <;> simp [cacheFieldErr, k2, IsText]
    · cases v <;> simp [cacheFieldErr, k3, IsText]
  rw [List.any_eq_false]
  constructor
  · intro h
    refine ⟨fun f hf v hv => (text f hf v).1 (by simpa using h _ hv), fun v hv => (body v hv).1 (by simpa using h _ hv)⟩
  · rintro ⟨h1, h2⟩ ⟨k, v⟩ hx
    rw [Bool.not_eq_true]
    by_cases hk : k ∈ cacheFields
    · simp only [cacheFields, List.mem_cons, List.not_mem_nil, or_false] at hk
      rcases hk with rfl | rfl | rfl | rfl
      · exact (text _ (by simp) v).2 (h1 _ (by simp) v hx)
      · exact (text _ (by simp) v).2 (h1 _ (by simp) v hx)
      · exact (text _ (by simp) v).2 (h1 _ (by simp) v hx)
      · exact (body v hx).2 (h2 v hx)
    · unfold cacheFieldErr
      dsimp only
      rw [Json.fieldOf_none (hp.2 _ hx) hk]
      rfl

end CacheFile
end Osv
