import Verif.Lemmas.TomlValue
/-!
# Every tree can be written as a TOML document
-/
namespace Osv.TomlText
open Osv Spec

theorem hex_exists {k : Nat} (h : k < 16) : ∃ c, HexDigit c k :=
  ⟨(g!"0123456789abcdef")[k]'(by simpa using h), .inl (List.getElem?_eq_getElem _)⟩

theorem escape_exists {c : Char} (h : c.toNat < 256) : ∃ e, TomlEscape c e := by
  obtain ⟨z, hz⟩ := hex_exists (k := 0) (by decide)
  obtain ⟨a, ha⟩ := hex_exists (k := c.toNat / 16) (by omega)
  obtain ⟨b, hb⟩ := hex_exists (k := c.toNat % 16) (by omega)
  have := TomlEscape.four (ds := [z, z, a, b]) (n := c.toNat) rfl
    ⟨[0, 0, c.toNat / 16, c.toNat % 16], .cons hz (.cons hz (.cons ha (.cons hb .nil))), by
      simp only [List.foldl_cons, List.foldl_nil]; omega⟩ (.inl (by omega))
  rw [Char.ofNat_toNat] at this
  exact ⟨_, this⟩

theorem basic_exists (t : Str) : ∃ raw, TomlBasic t raw := by
  induction t with
  | nil => exact ⟨_, .nil⟩
  | cons c t ih =>
    obtain ⟨raw, ih⟩ := ih
    by_cases h : c.toNat < 256
    · obtain ⟨e, he⟩ := escape_exists h
      exact ⟨_, .escape he ih⟩
    · refine ⟨_, .char (.inr ⟨by omega, by omega⟩) ?_ ?_ ih⟩
      · rintro rfl; exact h (by decide)
      · rintro rfl; exact h (by decide)

theorem word_exists (k : Str) : ∃ t, TomlWord k t := by
  obtain ⟨raw, h⟩ := basic_exists k
  exact ⟨_, .basic h⟩

theorem tomlDigits_concat {P : Char → Prop} {ds t : Str} {c : Char} (h : TomlDigits P ds t) (hc : P c) :
    TomlDigits P (ds ++ [c]) (t ++ [c]) := by
  induction h with
  | one h => exact .next h (.one hc)
  | next h _ ih => exact .next h ih
  | under h _ ih => exact .under h ih

theorem each_concat {α β : Type} {R : α → β → Prop} {l : List α} {m : List β} {a : α} {b : β} (h : Each R l m) (hr : R a b) :
    Each R (l ++ [a]) (m ++ [b]) := by
  induction h with
  | nil => exact .cons hr .nil
  | cons h _ ih => exact .cons h ih

theorem decimal_exists (n : Nat) : ∃ t, TomlDecimal t n := by
  have key : ∀ n, 0 < n → ∃ ds, TomlDigits (TomlDigit 10) ds ds ∧ ds.head? ≠ some '0' ∧ TomlNumber 10 ds n := by
    intro n
    induction n using Nat.strongRecOn with
    | ind n ih =>
      intro hn
      obtain ⟨c, hc⟩ := hex_exists (k := n % 10) (by omega)
      have hd : TomlDigit 10 c := ⟨_, hc, by omega⟩
      by_cases h : n < 10
      · refine ⟨[c], .one hd, ?_, [n % 10], .cons hc .nil, by simp; omega⟩
        simp only [List.head?_cons, ne_eq, Option.some.injEq]
        rintro rfl
        have := hexDigit_toml hc
        have h0 : hexDigit '0' = some 0 := by decide
        rw [h0] at this
        injection this with this; omega
      · obtain ⟨ds, h1, h2, vs, h3, h4⟩ := ih (n / 10) (by omega) (by omega)
        refine ⟨ds ++ [c], tomlDigits_concat h1 hd, ?_, vs ++ [n % 10], each_concat h3 hc, ?_⟩
        · cases ds with
          | nil => cases h1
          | cons a b => simpa using h2
        · rw [List.foldl_append, ← h4]
          simp only [List.foldl_cons, List.foldl_nil]; omega
  by_cases h : n = 0
  · exact ⟨_, .inl ⟨rfl, h⟩⟩
  · obtain ⟨ds, h1, h2, h3⟩ := key n (by omega)
    exact ⟨ds, .inr ⟨ds, h1, h2, h3⟩⟩

theorem int_exists {i : Int} (h1 : -2^63 ≤ i) (h2 : i < 2^63) : ∃ t, TomlInt i t := by
  obtain ⟨t, ht⟩ := decimal_exists i.natAbs
  by_cases h : 0 ≤ i
  · exact ⟨t, .inl ⟨_, ht, by omega⟩, h1, h2⟩
  · exact ⟨'-' :: t, .inr (.inr (.inl ⟨_, t, rfl, ht, by omega⟩)), h1, h2⟩

theorem pairs_exists {es : List (Str × TNode)} (h : (es.map Prod.fst).Nodup) :
    TomlPairs [] es (es.map fun e => ([e.1], e.2)) := by
  induction es with
  | nil => exact .nil
  | cons e es ih =>
    rw [List.map_cons, List.nodup_cons] at h
    exact .value h.1 (ih h.2)

theorem items_exists {l : List TNode} (h : ∀ v ∈ l, ∃ t, TomlValue v t) : ∃ t, TomlItems l t := by
  induction l with
  | nil => exact ⟨_, .nil .nil⟩
  | cons v l ih =>
    obtain ⟨t, ht⟩ := h v (by simp)
    obtain ⟨u, hu⟩ := ih (fun v hv => h v (List.mem_cons_of_mem _ hv))
    exact ⟨_, .cons .nil ht .nil hu⟩

theorem blank_nil : TomlBlank [] := by intro c h; cases h

theorem inline_exists {es : List (Str × TNode)} (hne : es ≠ []) (h : ∀ e ∈ es, ∃ t, TomlValue e.2 t) :
    ∃ t, TomlInline (es.map fun e => ([e.1], e.2)) t := by
  induction es with
  | nil => exact absurd rfl hne
  | cons e es ih =>
    obtain ⟨w, hw⟩ := word_exists e.1
    obtain ⟨t, ht⟩ := h e (by simp)
    by_cases he : es = []
    · subst he; exact ⟨_, .last (.one hw) blank_nil blank_nil ht blank_nil⟩
    · obtain ⟨u, hu⟩ := ih he (fun e he => h e (List.mem_cons_of_mem _ he))
      exact ⟨_, .cons (.one hw) blank_nil blank_nil ht blank_nil blank_nil hu⟩

theorem value_exists {n : TNode} (h : TomlTree n) : ∃ t, TomlValue n t := by
  induction h with
  | str t => obtain ⟨raw, h⟩ := basic_exists t; exact ⟨_, .basic h⟩
  | int h1 h2 => obtain ⟨t, h⟩ := int_exists h1 h2; exact ⟨_, .int h⟩
  | other => exact ⟨_, .other (.inl rfl)⟩
  | arr _ ih => obtain ⟨t, h⟩ := items_exists ih; exact ⟨_, .arr h⟩
  | @table es hn _ ih =>
    by_cases he : es = []
    · subst he; exact ⟨_, .empty blank_nil⟩
    · obtain ⟨t, h⟩ := inline_exists he ih
      exact ⟨_, .table blank_nil h (pairs_exists hn)⟩

theorem stmts_exists {es : List (Str × TNode)} (h : ∀ e ∈ es, ∃ t, TomlValue e.2 t) :
    ∃ t, TomlStmts ((es.map fun e => ([e.1], e.2)).map (fun x => Stmt.set x.1 x.2)) t := by
  induction es with
  | nil => exact ⟨_, .nil⟩
  | cons e es ih =>
    obtain ⟨w, hw⟩ := word_exists e.1
    obtain ⟨t, ht⟩ := h e (by simp)
    obtain ⟨u, hu⟩ := ih (fun e he => h e (List.mem_cons_of_mem _ he))
    exact ⟨_, .set blank_nil (.one hw) blank_nil blank_nil ht
      ⟨[], [], blank_nil, .inl rfl, .inl ⟨g!"\n", .inl rfl, rfl⟩⟩ hu⟩

theorem doc_exists {es : List (Str × TNode)} (h : TomlTree (.table es)) : ∃ t, TomlDoc (.table es) t := by
  cases h with
  | table hn hv =>
    obtain ⟨t, ht⟩ := stmts_exists (fun e he => value_exists (hv e he))
    refine ⟨t, es, _, rfl, ?_, ht⟩
    have := TomlBody.mk (p := []) (own := es) (subs := []) (by simp) (pairs_exists hn) .nil
    simpa using this

/-! ### What is written is such a tree -/

theorem pairs_tree {p : List Str} {es : List (Str × TNode)} {l : List (List Str × TNode)} (h : TomlPairs p es l) :
    (∀ x ∈ l, TomlTree x.2) → (es.map Prod.fst).Nodup ∧ ∀ e ∈ es, TomlTree e.2 := by
  induction h with
  | nil => intro _; simp
  | value hk _ ih =>
    intro hl
    obtain ⟨h1, h2⟩ := ih (fun x hx => hl x (List.mem_cons_of_mem _ hx))
    refine ⟨List.nodup_cons.2 ⟨hk, h1⟩, fun e he => ?_⟩
    rcases List.mem_cons.1 he with rfl | he
    · exact hl _ (List.mem_cons_self)
    · exact h2 e he
  | dotted hk _ _ _ ih1 ih2 =>
    intro hl
    obtain ⟨h1, h2⟩ := ih1 (fun x hx => hl x (List.mem_append.2 (.inl hx)))
    obtain ⟨h3, h4⟩ := ih2 (fun x hx => hl x (List.mem_append.2 (.inr hx)))
    refine ⟨List.nodup_cons.2 ⟨hk, h3⟩, fun e he => ?_⟩
    rcases List.mem_cons.1 he with rfl | he
    · exact .table h1 h2
    · exact h4 e he

mutual
theorem value_tree {v : TNode} {t : Str} : TomlValue v t → TomlTree v
  | .basic _ => .str _
  | .literal _ => .str _
  | .lines _ _ => .str _
  | .rawLines _ _ => .str _
  | .int h => .int h.2.1 h.2.2
  | .other _ => .other
  | .arr h => .arr (items_tree h)
  | .empty _ => .table (by simp) (by simp)
  | .table _ h hp =>
    have := pairs_tree hp (inline_tree h)
    .table this.1 this.2
theorem items_tree {l : List TNode} {t : Str} : TomlItems l t → ∀ v ∈ l, TomlTree v
  | .nil _ => by simp
  | .last _ hv _ => by
    have := value_tree hv
    simpa using this
  | .cons _ hv _ hl => by
    have h1 := value_tree hv
    have h2 := items_tree hl
    intro v h
    rcases List.mem_cons.1 h with rfl | h
    · exact h1
    · exact h2 v h
theorem inline_tree {l : List (List Str × TNode)} {t : Str} : TomlInline l t → ∀ x ∈ l, TomlTree x.2
  | .last _ _ _ hv _ => by
    have := value_tree hv
    simpa using this
  | .cons _ _ _ hv _ _ hl => by
    have h1 := value_tree hv
    have h2 := inline_tree hl
    intro v h
    rcases List.mem_cons.1 h with rfl | h
    · exact h1
    · exact h2 v h
end

/-- The values of statements are trees that can be written. -/
def Sound (l : List Stmt) : Prop := ∀ k v, Stmt.set k v ∈ l → TomlTree v

theorem Sound.left {a b : List Stmt} (h : Sound (a ++ b)) : Sound a := fun k v hm => h k v (List.mem_append.2 (.inl hm))

theorem Sound.right {a b : List Stmt} (h : Sound (a ++ b)) : Sound b := fun k v hm => h k v (List.mem_append.2 (.inr hm))

theorem Sound.tail {x : Stmt} {b : List Stmt} (h : Sound (x :: b)) : Sound b := fun k v hm => h k v (List.mem_cons_of_mem _ hm)

theorem stmts_sound {l : List Stmt} {s : Str} (h : TomlStmts l s) : Sound l := by
  induction h with
  | nil => intro k v h; cases h
  | empty _ _ _ ih => exact ih
  | set _ _ _ _ hv _ _ ih =>
    intro k v h
    rcases List.mem_cons.1 h with h | h
    · injection h with _ h; exact h ▸ value_tree hv
    · exact ih k v h
  | table _ _ _ _ _ _ ih =>
    intro k v h
    rcases List.mem_cons.1 h with h | h
    · cases h
    · exact ih k v h
  | item _ _ _ _ _ _ ih =>
    intro k v h
    rcases List.mem_cons.1 h with h | h
    · cases h
    · exact ih k v h

mutual
theorem body_tree {p : List Str} {es : List (Str × TNode)} {l : List Stmt} :
    TomlBody p es l → Sound l → TomlTree (.table es)
  | .mk hn hp hs => by
    have ih := subs_tree hs
    intro h
    obtain ⟨h1, h2⟩ := pairs_tree hp (fun x hx => h.left x.1 x.2 (List.mem_map.2 ⟨x, hx, rfl⟩))
    obtain ⟨h3, h4⟩ := ih h.right
    refine .table ?_ ?_
    · rw [List.map_append, List.nodup_append]
      refine ⟨h1, h3, ?_⟩
      intro a ha b hb
      obtain ⟨e, he, rfl⟩ := List.mem_map.1 ha
      rintro rfl
      exact hn e he hb
    · intro e he
      rcases List.mem_append.1 he with he | he
      · exact h2 e he
      · exact h4 e he
theorem subs_tree {p : List Str} {es : List (Str × TNode)} {l : List Stmt} :
    TomlSubs p es l → Sound l → (es.map Prod.fst).Nodup ∧ ∀ e ∈ es, TomlTree e.2
  | .nil => fun _ => by simp
  | .table hk hb hs => by
    have ih1 := body_tree hb
    have ih2 := subs_tree hs
    intro h
    obtain ⟨h3, h4⟩ := ih2 h.tail.right
    refine ⟨List.nodup_cons.2 ⟨hk, h3⟩, fun e he => ?_⟩
    rcases List.mem_cons.1 he with rfl | he
    · exact ih1 h.tail.left
    · exact h4 e he
  | .inner hk _ hb hs => by
    have ih1 := subs_tree hb
    have ih2 := subs_tree hs
    intro h
    obtain ⟨h3, h4⟩ := ih2 h.right
    refine ⟨List.nodup_cons.2 ⟨hk, h3⟩, fun e he => ?_⟩
    rcases List.mem_cons.1 he with rfl | he
    · exact .table (ih1 h.left).1 (ih1 h.left).2
    · exact h4 e he
  | .list hk _ hb hs => by
    have ih1 := elems_tree hb
    have ih2 := subs_tree hs
    intro h
    obtain ⟨h3, h4⟩ := ih2 h.right
    refine ⟨List.nodup_cons.2 ⟨hk, h3⟩, fun e he => ?_⟩
    rcases List.mem_cons.1 he with rfl | he
    · exact .arr (ih1 h.left)
    · exact h4 e he
theorem elems_tree {p : List Str} {l : List TNode} {s : List Stmt} : TomlElems p l s → Sound s → ∀ v ∈ l, TomlTree v
  | .nil => fun _ => by simp
  | .cons hb hl => by
    have ih1 := body_tree hb
    have ih2 := elems_tree hl
    intro h v hv
    rcases List.mem_cons.1 hv with rfl | hv
    · exact ih1 h.tail.left
    · exact ih2 h.tail.right v hv
end

theorem doc_tree {n : TNode} {t : Str} (h : TomlDoc n t) : TomlTree n := by
  obtain ⟨es, l, rfl, hb, ht⟩ := h
  exact body_tree hb (stmts_sound ht)

end Osv.TomlText
