import Verif.Spec.TomlDoc
/-!
# From the statements of a TOML document to its table
-/
namespace Osv.TomlText
open Osv Spec

theorem closeAll_append (a b : List (Str × Part)) : closeAll (a ++ b) = closeAll a ++ closeAll b := by
  induction a with
  | nil => simp [closeAll]
  | cons x a ih => obtain ⟨k, p⟩ := x; simp [closeAll, ih]

theorem closeAll_keys (a : List (Str × Part)) : (closeAll a).map Prod.fst = a.map Prod.fst := by
  induction a with
  | nil => simp [closeAll]
  | cons x a ih => obtain ⟨k, p⟩ := x; simp [closeAll, ih]

theorem alter_fresh {k : Str} (f : Option Part → Option Part) {es : List (Str × Part)} (h : k ∉ es.map Prod.fst) :
    alter k f es = (f none).map fun p => es ++ [(k, p)] := by
  induction es with
  | nil => simp [alter]
  | cons x es ih =>
    obtain ⟨k', p⟩ := x
    simp only [List.map_cons, List.mem_cons, not_or] at h
    rw [alter, if_neg (fun h' => h.1 h'.symm), ih h.2]
    cases f none <;> simp

theorem alter_last {k : Str} (f : Option Part → Option Part) {es : List (Str × Part)} (h : k ∉ es.map Prod.fst) (p : Part) :
    alter k f (es ++ [(k, p)]) = (f (some p)).map fun q => es ++ [(k, q)] := by
  induction es with
  | nil => simp [alter]
  | cons x es ih =>
    obtain ⟨k', p'⟩ := x
    simp only [List.map_cons, List.mem_cons, not_or] at h
    rw [List.cons_append, alter, if_neg (fun h' => h.1 h'.symm), ih h.2]
    cases f (some p) <;> simp

theorem within_append (f : List (Str × Part) → Option (List (Str × Part))) (p q : List Str) (es : List (Str × Part)) :
    within f (p ++ q) es = within (within f q) p es := by
  induction p generalizing es with
  | nil => simp [within]
  | cons k p ih =>
    simp only [List.cons_append, within]
    congr 1; funext o
    rcases o with _ | ⟨_⟩ | ⟨_, _⟩ | ⟨_, _⟩ <;> simp [ih]

/-- The table at a path can be filled. -/
def Hole (p : List Str) (C : List (Str × Part) → List (Str × Part)) : Prop := ∀ f es, within f p (C es) = (f es).map C

/-- Like `Hole`, but the tables on the path may still be missing. -/
def Start (p : List Str) (R es : List (Str × Part)) (C : List (Str × Part) → List (Str × Part)) : Prop :=
  ∀ f, within f p R = (f es).map C

theorem hole_sub {p : List Str} {C : List (Str × Part) → List (Str × Part)} (h : Hole p C) {k : Str} {es : List (Str × Part)}
    (hk : k ∉ es.map Prod.fst) (m : Mark) : Hole (p ++ [k]) (fun x => C (es ++ [(k, .sub m x)])) := by
  intro f x
  rw [within_append, h]
  simp only [within, alter_last _ hk]
  cases f x <;> simp

theorem hole_list {p : List Str} {C : List (Str × Part) → List (Str × Part)} (h : Hole p C) {k : Str} {es : List (Str × Part)}
    (hk : k ∉ es.map Prod.fst) (b : List TNode) : Hole (p ++ [k]) (fun x => C (es ++ [(k, .list b x)])) := by
  intro f x
  rw [within_append, h]
  simp only [within, alter_last _ hk]
  cases f x <;> simp

theorem start_implicit {p : List Str} {R es : List (Str × Part)} {C : List (Str × Part) → List (Str × Part)} (h : Start p R es C)
    {k : Str} (hk : k ∉ es.map Prod.fst) : Start (p ++ [k]) R [] (fun x => C (es ++ [(k, .sub .implicit x)])) := by
  intro f
  rw [within_append, h]
  simp only [within, alter_fresh _ hk]
  cases f [] <;> simp

/-! ### Keys with dots -/

theorem set_cons (v : TNode) (k : Str) {q : List Str} (hq : q ≠ []) (es : List (Str × Part)) :
    set v (k :: q) es = alter k (fun
      | none => (set v q []).map (.sub .dotted)
      | some (.sub .dotted es) => (set v q es).map (.sub .dotted)
      | some _ => none) es := by
  cases q with
  | nil => exact absurd rfl hq
  | cons a q =>
    conv => lhs; unfold set
    congr 1

/-- Pairs put into a table. -/
def putAll (es : List (Str × Part)) : List (List Str × TNode) → Option (List (Str × Part))
  | [] => some es
  | x :: l => (set x.2 x.1 es).bind fun es => putAll es l

theorem putAll_append (es : List (Str × Part)) (l m : List (List Str × TNode)) :
    putAll es (l ++ m) = (putAll es l).bind fun es => putAll es m := by
  induction l generalizing es with
  | nil => simp [putAll]
  | cons x l ih =>
    simp only [List.cons_append, putAll]
    cases set x.2 x.1 es <;> simp [ih]

def SetHole (p : List Str) (C : List (Str × Part) → List (Str × Part)) : Prop :=
  ∀ v q, q ≠ [] → ∀ es, set v (p ++ q) (C es) = (set v q es).map C

def SetStart (p : List Str) (R es : List (Str × Part)) (C : List (Str × Part) → List (Str × Part)) : Prop :=
  ∀ v q, q ≠ [] → set v (p ++ q) R = (set v q es).map C

theorem setHole_sub {p : List Str} {C : List (Str × Part) → List (Str × Part)} (h : SetHole p C) {k : Str}
    {es : List (Str × Part)} (hk : k ∉ es.map Prod.fst) : SetHole (p ++ [k]) (fun x => C (es ++ [(k, .sub .dotted x)])) := by
  intro v q hq x
  rw [List.append_assoc, h v ([k] ++ q) (by simp), List.singleton_append, set_cons v k hq, alter_last _ hk]
  dsimp only
  cases set v q x <;> simp

theorem setStart_sub {p : List Str} {R es : List (Str × Part)} {C : List (Str × Part) → List (Str × Part)}
    (h : SetStart p R es C) {k : Str} (hk : k ∉ es.map Prod.fst) :
    SetStart (p ++ [k]) R [] (fun x => C (es ++ [(k, .sub .dotted x)])) := by
  intro v q hq
  rw [List.append_assoc, h v ([k] ++ q) (by simp), List.singleton_append, set_cons v k hq, alter_fresh _ hk]
  dsimp only
  cases set v q [] <;> simp

theorem close_sub (m : Mark) (es : List (Str × Part)) : (Part.sub m es).close = .table (closeAll es) := by simp [Part.close]

theorem closeAll_one (k : Str) (p : Part) : closeAll [(k, p)] = [(k, p.close)] := by simp [closeAll]

theorem putAll_pairs {p : List Str} {es : List (Str × TNode)} {l : List (List Str × TNode)} (h : TomlPairs p es l) :
    ∀ (R e : List (Str × Part)) (C : List (Str × Part) → List (Str × Part)), SetHole p C → SetStart p R e C →
      (∀ x ∈ es, x.1 ∉ e.map Prod.fst) →
      (es = [] → l = []) ∧ (es ≠ [] → ∃ e', putAll R l = some (C e') ∧ closeAll e' = closeAll e ++ es) := by
  induction h with
  | nil => intro R e C _ _ _; exact ⟨fun _ => rfl, fun h => absurd rfl h⟩
  | @value p k v es l hk _ ih =>
    intro R e C hC hS hf
    refine ⟨fun h => (nomatch h), fun _ => ?_⟩
    have hke : k ∉ e.map Prod.fst := hf (k, v) (by simp)
    have h1 : set v (p ++ [k]) R = some (C (e ++ [(k, .val v)])) := by
      rw [hS v [k] (by simp), set, alter_fresh _ hke]; rfl
    have hf' : ∀ x ∈ es, x.1 ∉ (e ++ [(k, Part.val v)]).map Prod.fst := by
      intro x hx hm
      rw [List.map_append, List.mem_append] at hm
      rcases hm with hm | hm
      · exact hf x (List.mem_cons_of_mem _ hx) hm
      · exact hk (by simp at hm; exact hm ▸ List.mem_map_of_mem hx)
    obtain ⟨ih0, ih1⟩ := ih (C (e ++ [(k, .val v)])) (e ++ [(k, .val v)]) C hC (fun v q hq => hC v q hq _) hf'
    have hc : closeAll (e ++ [(k, Part.val v)]) = closeAll e ++ [(k, v)] := by
      rw [closeAll_append, closeAll_one, Part.close]
    by_cases he : es = []
    · refine ⟨e ++ [(k, .val v)], ?_, ?_⟩
      · rw [putAll, h1, ih0 he]; rfl
      · rw [hc, he]
    · obtain ⟨e', hp, hcl⟩ := ih1 he
      refine ⟨e', ?_, ?_⟩
      · rw [putAll, h1]; exact hp
      · rw [hcl, hc, List.append_assoc]; rfl
  | @dotted p k sub es l l' hk hne _ _ ih1 ih2 =>
    intro R e C hC hS hf
    refine ⟨fun h => (nomatch h), fun _ => ?_⟩
    have hke : k ∉ e.map Prod.fst := hf (k, .table sub) (by simp)
    obtain ⟨s', hp1, hcl1⟩ := (ih1 R [] _ (setHole_sub hC hke) (setStart_sub hS hke) (by simp)).2 hne
    have hc : closeAll (e ++ [(k, Part.sub .dotted s')]) = closeAll e ++ [(k, .table sub)] := by
      rw [closeAll_append, closeAll_one, close_sub, hcl1]; rfl
    have hf' : ∀ x ∈ es, x.1 ∉ (e ++ [(k, Part.sub .dotted s')]).map Prod.fst := by
      intro x hx hm
      rw [List.map_append, List.mem_append] at hm
      rcases hm with hm | hm
      · exact hf x (List.mem_cons_of_mem _ hx) hm
      · exact hk (by simp at hm; exact hm ▸ List.mem_map_of_mem hx)
    obtain ⟨ih0, ihn⟩ := ih2 _ (e ++ [(k, Part.sub .dotted s')]) C hC (fun v q hq => hC v q hq _) hf'
    by_cases he : es = []
    · refine ⟨e ++ [(k, Part.sub .dotted s')], ?_, ?_⟩
      · rw [ih0 he, List.append_nil]; exact hp1
      · rw [hc, he]
    · obtain ⟨e', hp, hcl⟩ := ihn he
      refine ⟨e', ?_, ?_⟩
      · rw [putAll_append, hp1]; exact hp
      · rw [hcl, hc, List.append_assoc]; rfl

theorem putAll_own {es : List (Str × TNode)} {l : List (List Str × TNode)} (h : TomlPairs [] es l) :
    ∃ e', putAll [] l = some e' ∧ closeAll e' = es := by
  obtain ⟨h0, h1⟩ := putAll_pairs h [] [] id (fun v q _ es => by simp) (fun v q _ => by simp) (by simp)
  by_cases he : es = []
  · exact ⟨[], by rw [h0 he]; rfl, by simp [closeAll, he]⟩
  · obtain ⟨e', hp, hc⟩ := h1 he
    exact ⟨e', hp, by rw [hc]; simp [closeAll]⟩

/-! ### Statements -/

theorem steps_append (s : State) (l m : List Stmt) : steps s (l ++ m) = (steps s l).bind fun s => steps s m := by
  induction l generalizing s with
  | nil => simp [steps]
  | cons x l ih =>
    simp only [List.cons_append, steps]
    cases step s x <;> simp [ih]

theorem steps_sets {p : List Str} {C : List (Str × Part) → List (Str × Part)} (h : Hole p C) (l : List (List Str × TNode))
    (es : List (Str × Part)) :
    steps ⟨C es, p⟩ (l.map (fun x => .set x.1 x.2)) = (putAll es l).map fun r => ⟨C r, p⟩ := by
  induction l generalizing es with
  | nil => simp [steps, putAll]
  | cons x l ih =>
    simp only [List.map_cons, steps, step, putAll, h (set x.2 x.1) es]
    cases set x.2 x.1 es with
    | none => rfl
    | some r => simpa using ih r

theorem fresh_append {es : List (Str × TNode)} {e : List (Str × Part)} {k : Str} {v : TNode} {q : Part}
    (hk : k ∉ es.map Prod.fst) (hf : ∀ x ∈ (k, v) :: es, x.1 ∉ e.map Prod.fst) :
    ∀ x ∈ es, x.1 ∉ (e ++ [(k, q)]).map Prod.fst := by
  intro x hx hm
  rw [List.map_append, List.mem_append] at hm
  rcases hm with hm | hm
  · exact hf x (List.mem_cons_of_mem _ hx) hm
  · exact hk (by simp at hm; exact hm ▸ List.mem_map_of_mem hx)

theorem step_table {p : List Str} {R es : List (Str × Part)} {C : List (Str × Part) → List (Str × Part)} (h : Start p R es C)
    {k : Str} (hk : k ∉ es.map Prod.fst) (ctx : List Str) :
    step ⟨R, ctx⟩ (.table (p ++ [k])) = some ⟨C (es ++ [(k, .sub .header [])]), p ++ [k]⟩ := by
  simp only [step, List.dropLast_concat, List.getLastD_concat]
  rw [h (alter k openTable), alter_fresh _ hk]; rfl

theorem step_item {p : List Str} {R es : List (Str × Part)} {C : List (Str × Part) → List (Str × Part)} (h : Start p R es C)
    {k : Str} (hk : k ∉ es.map Prod.fst) (ctx : List Str) :
    step ⟨R, ctx⟩ (.item (p ++ [k])) = some ⟨C (es ++ [(k, .list [] [])]), p ++ [k]⟩ := by
  simp only [step, List.dropLast_concat, List.getLastD_concat]
  rw [h (alter k openItem), alter_fresh _ hk]; rfl

theorem step_nextItem {p : List Str} {C : List (Str × Part) → List (Str × Part)} (h : Hole p C) {es : List (Str × Part)}
    {k : Str} (hk : k ∉ es.map Prod.fst) (b : List TNode) (last : List (Str × Part)) (ctx : List Str) :
    step ⟨C (es ++ [(k, .list b last)]), ctx⟩ (.item (p ++ [k])) =
      some ⟨C (es ++ [(k, .list (b ++ [.table (closeAll last)]) [])]), p ++ [k]⟩ := by
  simp only [step, List.dropLast_concat, h (alter _ _), List.getLastD_concat, alter_last _ hk, openItem]
  rfl

/-- What comes out of statements: filled tables. -/
def Fills (R : List (Str × Part)) (ctx : List Str) (stmts : List Stmt) (C : List (Str × Part) → List (Str × Part))
    (es : List (Str × TNode)) : Prop := ∃ e' ctx', steps ⟨R, ctx⟩ stmts = some ⟨C e', ctx'⟩ ∧ closeAll e' = es

mutual
theorem steps_body {p : List Str} {es : List (Str × TNode)} {stmts : List Stmt} :
    TomlBody p es stmts → ∀ C, Hole p C → Fills (C []) p stmts C es
  | .mk (own := own) (subs := subs) (l := l) (s := s) hn hp hs => by
    intro C hC
    obtain ⟨e, he, hc⟩ := putAll_own hp
    have h1 : steps ⟨C [], p⟩ (l.map (fun x => .set x.1 x.2)) = some ⟨C e, p⟩ := by rw [steps_sets hC, he]; rfl
    obtain ⟨h0, hf⟩ := steps_subs hs (C e) p e C hC (fun f => hC f e)
      (by intro x hx hm
          rw [← closeAll_keys, hc] at hm
          obtain ⟨y, hy, hxy⟩ := List.mem_map.1 hm
          exact hn y hy (hxy ▸ List.mem_map_of_mem hx))
    by_cases hne : subs = []
    · refine ⟨e, p, ?_, ?_⟩
      · rw [steps_append, h1, h0 hne]; rfl
      · rw [hc, hne, List.append_nil]
    · obtain ⟨e', ctx', h2, h3⟩ := hf hne
      refine ⟨e', ctx', ?_, ?_⟩
      · rw [steps_append, h1]; exact h2
      · rw [h3, hc]
theorem steps_subs {p : List Str} {subs : List (Str × TNode)} {stmts : List Stmt} :
    TomlSubs p subs stmts → ∀ R ctx e C, Hole p C → Start p R e C → (∀ x ∈ subs, x.1 ∉ e.map Prod.fst) →
      (subs = [] → stmts = []) ∧ (subs ≠ [] → Fills R ctx stmts C (closeAll e ++ subs))
  | .nil => fun _ _ _ _ _ _ _ => ⟨fun _ => rfl, fun h => absurd rfl h⟩
  | .table (k := k) (sub := sub) (es := es) (s := s) (s' := s') hk hb hs => by
    intro R ctx e C hC hS hf
    refine ⟨fun h => (nomatch h), fun _ => ?_⟩
    have hke : k ∉ e.map Prod.fst := hf (k, .table sub) (by simp)
    obtain ⟨e1, c1, h1, hc1⟩ := steps_body hb _ (hole_sub hC hke .header)
    obtain ⟨h0, hn⟩ := steps_subs hs (C (e ++ [(k, .sub .header e1)])) c1 (e ++ [(k, .sub .header e1)]) C hC (fun f => hC f _)
      (fresh_append hk hf)
    have hc : closeAll (e ++ [(k, Part.sub .header e1)]) = closeAll e ++ [(k, .table sub)] := by
      rw [closeAll_append, closeAll_one, close_sub, hc1]
    have h2 : steps ⟨R, ctx⟩ (.table (p ++ [k]) :: s) = some ⟨C (e ++ [(k, .sub .header e1)]), c1⟩ := by
      rw [steps, step_table hS hke]; exact h1
    by_cases hne : es = []
    · refine ⟨e ++ [(k, .sub .header e1)], c1, ?_, ?_⟩
      · rw [← List.cons_append, steps_append, h2, h0 hne]; rfl
      · rw [hc, hne]
    · obtain ⟨e', ctx', h3, h4⟩ := hn hne
      refine ⟨e', ctx', ?_, ?_⟩
      · rw [← List.cons_append, steps_append, h2]; exact h3
      · rw [h4, hc, List.append_assoc]; rfl
  | .inner (k := k) (sub := sub) (es := es) (s := s) (s' := s') hk hne1 hb hs => by
    intro R ctx e C hC hS hf
    refine ⟨fun h => (nomatch h), fun _ => ?_⟩
    have hke : k ∉ e.map Prod.fst := hf (k, .table sub) (by simp)
    obtain ⟨e1, c1, h1, hc1⟩ := (steps_subs hb R ctx [] _ (hole_sub hC hke .implicit) (start_implicit hS hke) (by simp)).2 hne1
    obtain ⟨h0, hn⟩ := steps_subs hs (C (e ++ [(k, .sub .implicit e1)])) c1 (e ++ [(k, .sub .implicit e1)]) C hC (fun f => hC f _)
      (fresh_append hk hf)
    have hc : closeAll (e ++ [(k, Part.sub .implicit e1)]) = closeAll e ++ [(k, .table sub)] := by
      rw [closeAll_append, closeAll_one, close_sub, hc1]; rfl
    by_cases hne : es = []
    · refine ⟨e ++ [(k, .sub .implicit e1)], c1, ?_, ?_⟩
      · rw [steps_append, h1, h0 hne]; rfl
      · rw [hc, hne]
    · obtain ⟨e', ctx', h3, h4⟩ := hn hne
      refine ⟨e', ctx', ?_, ?_⟩
      · rw [steps_append, h1]; exact h3
      · rw [h4, hc, List.append_assoc]; rfl
  | .list (k := k) (l := l) (es := es) (s := s) (s' := s') hk hne1 hb hs => by
    intro R ctx e C hC hS hf
    refine ⟨fun h => (nomatch h), fun _ => ?_⟩
    have hke : k ∉ e.map Prod.fst := hf (k, .arr l) (by simp)
    obtain ⟨b1, e1, c1, h1, hc1⟩ := (steps_elems hb p k rfl C e hC hke).2 R ctx hS hne1
    obtain ⟨h0, hn⟩ := steps_subs hs (C (e ++ [(k, .list b1 e1)])) c1 (e ++ [(k, .list b1 e1)]) C hC (fun f => hC f _)
      (fresh_append hk hf)
    have hc : closeAll (e ++ [(k, Part.list b1 e1)]) = closeAll e ++ [(k, .arr l)] := by
      rw [closeAll_append, closeAll_one, Part.close, hc1]
    by_cases hne : es = []
    · refine ⟨e ++ [(k, .list b1 e1)], c1, ?_, ?_⟩
      · rw [steps_append, h1, h0 hne]; rfl
      · rw [hc, hne]
    · obtain ⟨e', ctx', h3, h4⟩ := hn hne
      refine ⟨e', ctx', ?_, ?_⟩
      · rw [steps_append, h1]; exact h3
      · rw [h4, hc, List.append_assoc]; rfl
theorem steps_elems {q : List Str} {l : List TNode} {stmts : List Stmt} :
    TomlElems q l stmts → ∀ p k, q = p ++ [k] → ∀ C e, Hole p C → k ∉ e.map Prod.fst →
      (∀ ctx b last, ∃ b' last' ctx', steps ⟨C (e ++ [(k, .list b last)]), ctx⟩ stmts = some ⟨C (e ++ [(k, .list b' last')]), ctx'⟩ ∧
        b' ++ [.table (closeAll last')] = b ++ .table (closeAll last) :: l) ∧
      (∀ R ctx, Start p R e C → l ≠ [] → ∃ b' last' ctx', steps ⟨R, ctx⟩ stmts = some ⟨C (e ++ [(k, .list b' last')]), ctx'⟩ ∧
        b' ++ [.table (closeAll last')] = l)
  | .nil => fun _ _ _ _ _ _ _ => ⟨fun ctx b last => ⟨b, last, ctx, rfl, rfl⟩, fun _ _ _ h => absurd rfl h⟩
  | .cons (es := es) (l := l) (s := s) (s' := s') hb hl => by
    have ihb := steps_body hb
    have ih := steps_elems hl
    rintro p k rfl C e hC hk
    obtain ⟨ihl, -⟩ := ih p k rfl C e hC hk
    refine ⟨fun ctx b last => ?_, fun R ctx hS _ => ?_⟩
    · obtain ⟨e1, c1, h1, hc1⟩ := ihb _ (hole_list hC hk (b ++ [.table (closeAll last)]))
      obtain ⟨b', last', ctx', h2, h3⟩ := ihl c1 (b ++ [.table (closeAll last)]) e1
      refine ⟨b', last', ctx', ?_, ?_⟩
      · rw [steps, step_nextItem hC hk, Option.bind_some, steps_append, h1]; exact h2
      · rw [h3, hc1]; simp
    · obtain ⟨e1, c1, h1, hc1⟩ := ihb _ (hole_list hC hk [])
      obtain ⟨b', last', ctx', h2, h3⟩ := ihl c1 [] e1
      refine ⟨b', last', ctx', ?_, ?_⟩
      · rw [steps, step_item hS hk, Option.bind_some, steps_append, h1]; exact h2
      · rw [h3, hc1]; simp
end

theorem steps_doc {es : List (Str × TNode)} {l : List Stmt} (h : TomlBody [] es l) :
    (steps ⟨[], []⟩ l).map (fun s => TNode.table (closeAll s.root)) = some (.table es) := by
  obtain ⟨e', c, h1, h2⟩ := steps_body h id (fun f es => by simp [within])
  rw [show (⟨[], []⟩ : State) = ⟨id [], []⟩ from rfl, h1]; simp [h2]

end Osv.TomlText
