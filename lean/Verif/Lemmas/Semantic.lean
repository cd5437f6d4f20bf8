import Verif.Model.Semantic
import Verif.Spec.Version
/-! # Comparisons of versions are total preorders -/
namespace Osv.Semantic
open Str

/-- The laws of a three-way comparison. -/
structure Total {α : Type} (c : α → α → Int) : Prop where
  refl : ∀ a, c a a = 0
  flip : ∀ a b, c a b < 0 ↔ 0 < c b a
  trans : ∀ a b d, c a b ≤ 0 → c b d ≤ 0 → c a d ≤ 0

namespace Total
variable {α β : Type} {c : α → α → Int}

theorem lt_le (h : Total c) {a b d : α} (h1 : c a b < 0) (h2 : c b d ≤ 0) : c a d < 0 := by
  refine Classical.byContradiction fun hn => ?_
  have h3 : ¬ 0 < c d a := fun h3 => hn ((h.flip a d).mpr h3)
  have h4 := h.trans b d a h2 (by omega)
  have := (h.flip a b).mp h1
  omega

theorem le_lt (h : Total c) {a b d : α} (h1 : c a b ≤ 0) (h2 : c b d < 0) : c a d < 0 := by
  refine Classical.byContradiction fun hn => ?_
  have h3 : ¬ 0 < c d a := fun h3 => hn ((h.flip a d).mpr h3)
  have h4 := h.trans d a b (by omega) h1
  have := (h.flip b d).mp h2
  omega

theorem eq_symm (h : Total c) {a b : α} (h1 : c a b = 0) : c b a = 0 := by
  have := h.flip a b
  have := h.flip b a
  omega

theorem comap (h : Total c) (f : β → α) : Total fun a b => c (f a) (f b) :=
  ⟨fun _ => h.refl _, fun _ _ => h.flip _ _, fun _ _ _ => h.trans _ _ _⟩

/-- One comparison after the other. -/
theorem lex {c' : α → α → Int} (h : Total c) (h' : Total c') : Total fun a b => if c a b ≠ 0 then c a b else c' a b := by
  refine ⟨fun a => by simp [h.refl, h'.refl], fun a b => ?_, fun a b d h1 h2 => ?_⟩
  · have e1 := h.flip a b
    have e2 := h.flip b a
    have e3 := h'.flip a b
    split <;> split <;> omega
  · split at h1
    · split at h2
      · have := h.lt_le (a := a) (b := b) (d := d) (by omega) (by omega)
        rw [if_pos (by omega)]; omega
      · have := h.lt_le (a := a) (b := b) (d := d) (by omega) (by omega)
        rw [if_pos (by omega)]; omega
    · split at h2
      · have := h.le_lt (a := a) (b := b) (d := d) (by omega) (by omega)
        rw [if_pos (by omega)]; omega
      · have e1 := h.trans a b d (by omega) (by omega)
        have e2 := h'.trans a b d h1 h2
        split <;> omega

end Total

theorem total_const {α : Type} : Total fun (_ _ : α) => (0 : Int) := ⟨fun _ => rfl, fun _ _ => by simp, fun _ _ _ _ _ => by simp⟩

theorem cmpInt_total : Total cmpInt := by
  refine ⟨fun a => by simp [cmpInt], fun a b => ?_, fun a b d => ?_⟩ <;> unfold cmpInt <;> intros <;> split at * <;>
    first | omega | (split at * <;> first | omega | (split at * <;> first | omega | (split at * <;> first | omega | (split at * <;> omega))))

theorem cmpInt_lt (a b : Int) : cmpInt a b < 0 ↔ a < b := by
  unfold cmpInt
  split
  · omega
  split <;> omega
theorem cmpInt_eq (a b : Int) : cmpInt a b = 0 ↔ a = b := by
  unfold cmpInt
  split
  · omega
  split <;> omega

/-- Item by item, where the end is the least. -/
def cmpList {α : Type} (c : α → α → Int) : List α → List α → Int
  | [], [] => 0
  | [], _ :: _ => -1
  | _ :: _, [] => 1
  | a :: as, b :: bs => if c a b ≠ 0 then c a b else cmpList c as bs

theorem cmpList_total {α : Type} {c : α → α → Int} (h : Total c) : Total (cmpList c) := by
  refine ⟨fun a => ?_, fun a => ?_, fun a => ?_⟩
  · induction a with
    | nil => rfl
    | cons x xs ih => simp [cmpList, h.refl, ih]
  · induction a with
    | nil => intro b; cases b <;> simp [cmpList]
    | cons x xs ih =>
      intro b
      cases b with
      | nil => simp [cmpList]
      | cons y ys =>
        have e1 := h.flip x y
        have e2 := h.flip y x
        have e3 := ih ys
        simp only [cmpList]
        split <;> split <;> omega
  · induction a with
    | nil => intro b d h1 h2; cases d <;> simp [cmpList]
    | cons x xs ih =>
      intro b d h1 h2
      cases b with
      | nil => simp [cmpList] at h1
      | cons y ys =>
        cases d with
        | nil => simp [cmpList] at h2
        | cons z zs =>
          have e := ih ys zs
          simp only [cmpList] at h1 h2 ⊢
          split at h1
          · split at h2
            · have := h.lt_le (a := x) (b := y) (d := z) (by omega) (by omega)
              rw [if_pos (by omega)]; omega
            · have := h.lt_le (a := x) (b := y) (d := z) (by omega) (by omega)
              rw [if_pos (by omega)]; omega
          · split at h2
            · have := h.le_lt (a := x) (b := y) (d := z) (by omega) (by omega)
              rw [if_pos (by omega)]; omega
            · have e1 := h.trans x y z (by omega) (by omega)
              have e2 := e h1 h2
              split <;> omega

theorem cmpStr_eq_list : cmpStr = cmpList (fun a b => cmpInt (a.toNat : Int) (b.toNat : Int)) := by
  funext a b
  induction a generalizing b with
  | nil => cases b <;> rfl
  | cons x xs ih =>
    cases b with
    | nil => rfl
    | cons y ys =>
      simp only [cmpStr, cmpList, cmpInt, ih]
      by_cases h1 : x.toNat < y.toNat
      · simp [h1]
      · by_cases h2 : y.toNat < x.toNat
        · have : ¬ (x.toNat : Int) < y.toNat := by omega
          have h3 : (y.toNat : Int) < x.toNat := by omega
          simp [h1, h2, this, h3]
        · have : ¬ (x.toNat : Int) < y.toNat := by omega
          have h3 : ¬ (y.toNat : Int) < x.toNat := by omega
          simp [h1, h2, this, h3]

theorem cmpStr_total : Total cmpStr := by
  rw [cmpStr_eq_list]
  exact cmpList_total (cmpInt_total.comap _)

theorem cmpStr_eq (a b : Str) : cmpStr a b = 0 ↔ a = b := by
  induction a generalizing b with
  | nil => cases b <;> simp [cmpStr]
  | cons x xs ih =>
    cases b with
    | nil => simp [cmpStr]
    | cons y ys =>
      simp only [cmpStr]
      split
      · rename_i h
        exact ⟨fun e => absurd e (by decide), fun e => by injection e with e; subst e; omega⟩
      · split
        · rename_i h
          exact ⟨fun e => absurd e (by decide), fun e => by injection e with e; subst e; omega⟩
        · rw [ih, List.cons.injEq]
          have : x = y := Char.toNat_inj.mp (by omega)
          simp [this]

theorem cmpIdents_eq_list : cmpIdents = cmpList cmpIdent := by
  funext a b
  induction a generalizing b with
  | nil => cases b <;> rfl
  | cons x xs ih => cases b <;> simp [cmpIdents, cmpList, ih]

theorem cmpIdent_total : Total cmpIdent := by
  refine ⟨fun a => ?_, fun a b => ?_, fun a b d => ?_⟩
  · unfold cmpIdent
    cases bigInt? a
    · exact cmpStr_total.refl a
    · exact cmpInt_total.refl _
  · unfold cmpIdent
    cases bigInt? a <;> cases bigInt? b <;> dsimp only
    · exact cmpStr_total.flip a b
    · omega
    · omega
    · exact cmpInt_total.flip _ _
  · unfold cmpIdent
    cases bigInt? a <;> cases bigInt? b <;> cases bigInt? d <;> dsimp only <;> intro h1 h2 <;> try omega
    · exact cmpStr_total.trans a b d h1 h2
    · exact cmpInt_total.trans _ _ _ h1 h2

theorem cmpSegment_total : Total cmpSegment := by
  refine ⟨fun a => ?_, fun a b => ?_, fun a b d => ?_⟩
  · unfold cmpSegment
    cases bigInt? a
    · exact cmpStr_total.refl a
    · exact cmpInt_total.refl _
  · unfold cmpSegment
    cases bigInt? a <;> cases bigInt? b <;> dsimp only
    · exact cmpStr_total.flip a b
    · omega
    · omega
    · exact cmpInt_total.flip _ _
  · unfold cmpSegment
    cases bigInt? a <;> cases bigInt? b <;> cases bigInt? d <;> dsimp only <;> intro h1 h2 <;> try omega
    · exact cmpStr_total.trans a b d h1 h2
    · exact cmpInt_total.trans _ _ _ h1 h2

/-- The first difference among the given places, with `z` for items that are missing. -/
def cmpAt {α : Type} (c : α → α → Int) (z : α) (is : List Nat) (a b : List α) : Int :=
  (is.map fun i => c (a.getD i z) (b.getD i z)).foldr (fun d r => if d ≠ 0 then d else r) 0

theorem cmpAt_total {α : Type} {c : α → α → Int} (h : Total c) (z : α) (is : List Nat) : Total (cmpAt c z is) := by
  induction is with
  | nil => exact total_const
  | cons i is ih => exact (h.comap fun (l : List α) => l.getD i z).lex ih

theorem cmpAt_append {α : Type} (c : α → α → Int) (z : α) (is js : List Nat) (a b : List α)
    (h : ∀ j ∈ js, c (a.getD j z) (b.getD j z) = 0) : cmpAt c z (is ++ js) a b = cmpAt c z is a b := by
  induction is with
  | nil =>
    induction js with
    | nil => rfl
    | cons j js ih =>
      have := h j (List.mem_cons_self ..)
      have ih := ih (fun k hk => h k (List.mem_cons_of_mem _ hk))
      simp only [cmpAt, List.nil_append, List.map_cons, List.foldr_cons, this] at ih ⊢
      simpa using ih
  | cons i is ih =>
    simp only [cmpAt, List.cons_append, List.map_cons, List.foldr_cons] at ih ⊢
    rw [ih]

/-- More places than there are items make no difference. -/
theorem cmpAt_range {α : Type} {c : α → α → Int} (h : Total c) (z : α) (a b : List α) (n : Nat) (ha : a.length ≤ n) (hb : b.length ≤ n) :
    cmpAt c z (List.range n) a b = cmpAt c z (List.range (Nat.max a.length b.length)) a b := by
  obtain ⟨k, rfl⟩ : ∃ k, n = Nat.max a.length b.length + k := ⟨n - Nat.max a.length b.length, by
    have : Nat.max a.length b.length ≤ n := Nat.max_le.mpr ⟨ha, hb⟩
    omega⟩
  rw [List.range_add]
  apply cmpAt_append
  intro j hj
  obtain ⟨i, -, rfl⟩ := List.mem_map.mp hj
  have h1 : a.length ≤ Nat.max a.length b.length := Nat.le_max_left ..
  have h2 : b.length ≤ Nat.max a.length b.length := Nat.le_max_right ..
  have e1 : ∀ l : List α, l.length ≤ Nat.max a.length b.length → l.getD (Nat.max a.length b.length + i) z = z := fun l hl => by
    rw [List.getD_eq_getElem?_getD, List.getElem?_eq_none (by omega)]; rfl
  rw [e1 a h1, e1 b h2]
  exact h.refl z

theorem cmpPad_total {α : Type} {c : α → α → Int} (h : Total c) (z : α) :
    Total fun a b => cmpAt c z (List.range (Nat.max a.length b.length)) a b := by
  refine ⟨fun a => (cmpAt_total h z _).refl a, fun a b => ?_, fun a b d => ?_⟩
  · have : Nat.max b.length a.length = Nat.max a.length b.length := Nat.max_comm ..
    simp only [this]
    exact (cmpAt_total h z _).flip a b
  · have l1 : a.length ≤ a.length + b.length + d.length := by omega
    have l2 : b.length ≤ a.length + b.length + d.length := by omega
    have l3 : d.length ≤ a.length + b.length + d.length := by omega
    rw [← cmpAt_range h z a b _ l1 l2, ← cmpAt_range h z b d _ l2 l3, ← cmpAt_range h z a d _ l1 l3]
    exact (cmpAt_total h z _).trans a b d

theorem cmpComponents_total : Total cmpComponents :=
  cmpPad_total (c := fun (m n : Nat) => cmpInt m n) (cmpInt_total.comap _) 0

theorem cmpSegments_total : Total cmpSegments := cmpPad_total cmpSegment_total g!"0"

theorem cmpBuild_total : Total cmpBuild := by
  have h : Total fun (a b : Str) => if a = [] ∧ b ≠ [] then (1 : Int) else if a ≠ [] ∧ b = [] then -1
      else cmpIdents (splitChar '.' a) (splitChar '.' b) := by
    have hl : Total fun (a b : Str) => cmpIdents (splitChar '.' a) (splitChar '.' b) := by
      rw [cmpIdents_eq_list]; exact (cmpList_total cmpIdent_total).comap _
    refine ⟨fun a => ?_, fun a b => ?_, fun a b d => ?_⟩
    · by_cases ha : a = [] <;> simp [ha] <;> exact hl.refl _
    · have := hl.flip a b
      by_cases ha : a = [] <;> by_cases hb : b = [] <;> simp [ha, hb] at this ⊢ <;> exact this
    · have := hl.trans a b d
      by_cases ha : a = [] <;> by_cases hb : b = [] <;> by_cases hd : d = [] <;> simp [ha, hb, hd] at this ⊢ <;> exact this
  exact h.comap prerelease

theorem semver_total : Total semver :=
  (cmpComponents_total.comap fun s => (parseLike 3 s).components).lex (cmpBuild_total.comap fun s => (parseLike 3 s).build)

theorem nuget_total : Total nuget :=
  (cmpComponents_total.comap fun s => (parseLike 4 s).components).lex (cmpBuild_total.comap fun s => toLower (parseLike 4 s).build)

theorem rubygems_total (segments : Str → List Str) : Total (rubygems segments) := cmpSegments_total.comap segments

theorem Total.laws {c : Str → Str → Int} (h : Total c) : Spec.CmpLaws c := ⟨h.refl, h.flip, h.trans⟩

end Osv.Semantic
