import Verif.Lemmas.Semantic
import Verif.Lemmas.ModFile
import Verif.Spec.Precedence
/-! # Semantic versions are compared by their precedence -/
namespace Osv.Semantic
open Str Osv.Spec.ModText Osv.Spec.Precedence

/-! ## Numbers -/

theorem digit_nat {c : Char} : Digit c ↔ 48 ≤ c.toNat ∧ c.toNat ≤ 57 := by
  show ('0'.val ≤ c.val ∧ c.val ≤ '9'.val) ↔ _
  rw [UInt32.le_iff_toNat_le, UInt32.le_iff_toNat_le]
  rfl

theorem isDigit_iff {c : Char} : isDigit c = true ↔ Digit c := by simp [isDigit, Digit]

theorem decimal_snoc (s : Str) (c : Char) : decimal (s ++ [c]) = decimal s * 10 + (c.toNat - 48) := by simp [decimal]

theorem hexDigit_ten {c : Char} {n : Nat} (h : Spec.HexDigit c n) (hn : n < 10) : Digit c ∧ c.toNat - 48 = n := by
  have : ∀ n < 10, ∀ c, g!"0123456789abcdef"[n]? = some c ∨ g!"0123456789ABCDEF"[n]? = some c → Digit c ∧ c.toNat - 48 = n := by
    intro n hn c h
    match n, hn with
    | 0, _ | 1, _ | 2, _ | 3, _ | 4, _ | 5, _ | 6, _ | 7, _ | 8, _ | 9, _ =>
      rcases h with h | h <;> (injection h with h; subst h; exact ⟨digit_nat.mpr (by decide), rfl⟩)
  exact this n hn c h

theorem ten_hexDigit {c : Char} (h : Digit c) : Spec.HexDigit c (c.toNat - 48) ∧ c.toNat - 48 < 10 := by
  have h := digit_nat.mp h
  have : ∀ k < 10, Spec.HexDigit (Char.ofNat (48 + k)) k := by
    intro k hk
    left
    revert k
    decide
  have e : c = Char.ofNat (48 + (c.toNat - 48)) := by
    have : 48 + (c.toNat - 48) = c.toNat := by omega
    rw [this, Char.ofNat_toNat]
  refine ⟨?_, by omega⟩
  have := this (c.toNat - 48) (by omega)
  rwa [← e] at this

theorem numeral_decimal {s : Str} {n : Nat} : Numeral 10 s n ↔ (∀ c ∈ s, Digit c) ∧ decimal s = n := by
  constructor
  · intro h
    induction h with
    | nil => exact ⟨by simp, rfl⟩
    | snoc h hd hn ih =>
      obtain ⟨h1, h2⟩ := hexDigit_ten hd hn
      refine ⟨fun c hc => ?_, ?_⟩
      · rcases List.mem_append.mp hc with hc | hc
        · exact ih.1 c hc
        · rw [List.mem_singleton.mp hc]; exact h1
      · rw [decimal_snoc, ih.2, h2, Nat.mul_comm]
  · rintro ⟨h, rfl⟩
    have : ∀ k (s : Str), s.length = k → (∀ c ∈ s, Digit c) → Numeral 10 s (decimal s) := by
      intro k
      induction k with
      | zero => intro s hs _; rw [List.length_eq_zero_iff.mp hs]; exact .nil
      | succ k ih =>
        intro s hs hd
        obtain ⟨t, c, rfl⟩ : ∃ t c, s = t ++ [c] := by
          have hne : s ≠ [] := by intro e; simp [e] at hs
          exact ⟨s.dropLast, s.getLast hne, (List.dropLast_concat_getLast hne).symm⟩
        rw [decimal_snoc, Nat.mul_comm]
        obtain ⟨h1, h2⟩ := ten_hexDigit (hd c (by simp))
        exact .snoc (ih t (by simpa using hs) fun d hd' => hd d (by simp [hd'])) h1 h2
    exact this _ s rfl h

theorem decimal_iff {s : Str} {n : Nat} : Decimal s n ↔ digits? s = some n := by
  unfold Decimal digits?
  rw [numeral_decimal]
  have : (s.all isDigit = true) ↔ ∀ c ∈ s, Digit c := by simp [isDigit, Digit]
  by_cases h : s ≠ [] ∧ s.all isDigit = true
  · rw [if_pos h]
    simp only [Option.some.injEq]
    exact ⟨fun h => h.2.2, fun e => ⟨h.1, this.mp h.2, e⟩⟩
  · rw [if_neg h]
    simp only [reduceCtorEq, iff_false]
    exact fun hh => h ⟨hh.1, this.mpr hh.2.1⟩

/-- Digits that do not start with a zero are determined by their value. -/
theorem decimal_inj : ∀ (k : Nat) (s t : Str), s.length ≤ k → t.length ≤ k → (∀ c ∈ s, Digit c) → (∀ c ∈ t, Digit c) →
    (∀ r, s ≠ '0' :: r) → (∀ r, t ≠ '0' :: r) → decimal s = decimal t → s = t := by
  have pos : ∀ (k : Nat) (s : Str), s.length ≤ k → (∀ c ∈ s, Digit c) → (∀ r, s ≠ '0' :: r) → s ≠ [] → 0 < decimal s := by
    intro k
    induction k with
    | zero => intro s hs _ _ hne; exact absurd (List.length_eq_zero_iff.mp (by omega)) hne
    | succ k ih =>
      intro s hs hd hz hne
      obtain ⟨t, c, rfl⟩ : ∃ t c, s = t ++ [c] := ⟨s.dropLast, s.getLast hne, (List.dropLast_concat_getLast hne).symm⟩
      rw [decimal_snoc]
      by_cases ht : t = []
      · subst ht
        have h1 := digit_nat.mp (hd c (by simp))
        have h2 : c ≠ '0' := fun e => hz [] (by simp [e])
        have h3 : c.toNat ≠ 48 := fun e => h2 (Char.toNat_inj.mp e)
        omega
      · have := ih t (by simp at hs; omega) (fun d h => hd d (by simp [h])) (fun r e => hz (r ++ [c]) (by simp [e])) ht
        omega
  intro k
  induction k with
  | zero => intro s t hs ht _ _ _ _ _; rw [List.length_eq_zero_iff.mp (by omega : s.length = 0), List.length_eq_zero_iff.mp (by omega : t.length = 0)]
  | succ k ih =>
    intro s t hs ht ds dt zs zt e
    by_cases hse : s = []
    · by_cases hte : t = []
      · rw [hse, hte]
      · have := pos _ t (Nat.le_refl _) dt zt hte
        rw [← e, hse] at this
        exact absurd this (by decide)
    · by_cases hte : t = []
      · have := pos _ s (Nat.le_refl _) ds zs hse
        rw [e, hte] at this
        exact absurd this (by decide)
      · obtain ⟨s', c, rfl⟩ : ∃ t c, s = t ++ [c] := ⟨s.dropLast, s.getLast hse, (List.dropLast_concat_getLast hse).symm⟩
        obtain ⟨t', d, rfl⟩ : ∃ s c, t = s ++ [c] := ⟨t.dropLast, t.getLast hte, (List.dropLast_concat_getLast hte).symm⟩
        rw [decimal_snoc, decimal_snoc] at e
        have h1 := digit_nat.mp (ds c (by simp))
        have h2 := digit_nat.mp (dt d (by simp))
        have h3 : decimal s' = decimal t' := by omega
        have h4 : c = d := Char.toNat_inj.mp (by omega)
        have := ih s' t' (by simp at hs; omega) (by simp at ht; omega) (fun d h => ds d (by simp [h])) (fun c h => dt c (by simp [h]))
          (fun r e => zs (r ++ [c]) (by simp [e])) (fun r e => zt (r ++ [d]) (by simp [e])) h3
        rw [this, h4]

theorem number_inj {s t : Str} (hs : Number s) (ht : Number t) (e : decimal s = decimal t) : s = t := by
  have zero : ∀ u : Str, Number u → (∃ r, u = '0' :: r) → u = g!"0" := by
    rintro u hu ⟨r, rfl⟩
    rw [hu.2.2 r rfl]
  have nz : ∀ u : Str, Number u → (∀ r, u ≠ '0' :: r) → decimal u ≠ 0 := fun u hu hz h0 =>
    hu.1 (decimal_inj u.length u [] (Nat.le_refl _) (by simp) hu.2.1 (by simp) hz (by simp) h0)
  by_cases h1 : ∃ r, s = '0' :: r
  · by_cases h2 : ∃ r, t = '0' :: r
    · rw [zero s hs h1, zero t ht h2]
    · have := nz t ht fun r e => h2 ⟨r, e⟩
      rw [← e, zero s hs h1] at this
      exact absurd rfl this
  · by_cases h2 : ∃ r, t = '0' :: r
    · have := nz s hs fun r e => h1 ⟨r, e⟩
      rw [e, zero t ht h2] at this
      exact absurd rfl this
    · exact decimal_inj (s.length + t.length) s t (by omega) (by omega) hs.2.1 ht.2.1 (fun r e => h1 ⟨r, e⟩) (fun r e => h2 ⟨r, e⟩) e

/-! ## Lists -/

theorem before_nil {α : Type} {lt : α → α → Prop} {s : List α} : ¬ Before lt s [] := by
  intro h
  generalize e : ([] : List α) = n at h
  cases h with
  | longer => exact absurd e (by simp)
  | differ => exact absurd e (by simp)

theorem cmpList_before {α : Type} {c : α → α → Int} {P : α → Prop} (he : ∀ a b, P a → P b → (c a b = 0 ↔ a = b)) :
    ∀ (s t : List α), (∀ a ∈ s, P a) → (∀ b ∈ t, P b) →
      (cmpList c s t < 0 ↔ Before (fun a b => c a b < 0) s t) ∧ (cmpList c s t = 0 ↔ s = t) := by
  intro s
  induction s with
  | nil =>
    intro t _ _
    cases t with
    | nil => exact ⟨⟨fun h => by simp [cmpList] at h, fun h => absurd h before_nil⟩, by simp [cmpList]⟩
    | cons y ys => exact ⟨⟨fun _ => Before.longer (p := []), fun _ => by simp [cmpList]⟩, by simp [cmpList]⟩
  | cons x xs ih =>
    intro t hs ht
    cases t with
    | nil =>
      exact ⟨⟨fun h => by simp [cmpList] at h, fun h => absurd h before_nil⟩, by simp [cmpList]⟩
    | cons y ys =>
      have ihs := ih ys (fun a h => hs a (List.mem_cons_of_mem _ h)) fun b h => ht b (List.mem_cons_of_mem _ h)
      have exy := he x y (hs x (List.mem_cons_self ..)) (ht y (List.mem_cons_self ..))
      simp only [cmpList]
      by_cases hxy : c x y = 0
      · have := exy.mp hxy
        subst this
        rw [if_neg (by simpa using hxy)]
        refine ⟨ihs.1.trans ⟨fun h => ?_, fun h => ?_⟩, by rw [ihs.2]; simp⟩
        · cases h with
          | longer => exact Before.longer (p := x :: xs)
          | differ h => rename_i p _ _ _ _; exact Before.differ (p := x :: p) h
        · generalize e1 : x :: xs = l1 at h
          generalize e2 : x :: ys = l2 at h
          cases h with
          | longer =>
            subst e1
            injection e2 with _ e2
            subst e2
            exact .longer
          | differ h =>
            rename_i p _ _ _ _
            cases p with
            | nil =>
              injection e1 with e1 _; injection e2 with e2 _
              subst e1; subst e2
              omega
            | cons z p =>
              injection e1 with _ e1; injection e2 with _ e2
              subst e1; subst e2
              exact .differ h
      · rw [if_pos hxy]
        have hne : x ≠ y := fun e => hxy (exy.mpr e)
        refine ⟨⟨fun h => Before.differ (p := []) h, fun h => ?_⟩, by simp [hxy, hne]⟩
        generalize e1 : x :: xs = l1 at h
        generalize e2 : y :: ys = l2 at h
        cases h with
        | longer =>
          subst e1
          injection e2 with e2 _
          exact absurd e2.symm hne
        | differ h =>
          rename_i p _ _ _ _
          cases p with
          | nil =>
            injection e1 with e1 _; injection e2 with e2 _
            subst e1; subst e2
            exact h
          | cons z p =>
            injection e1 with e1 _; injection e2 with e2 _
            exact absurd (e1.trans e2.symm) hne

theorem before_imp {α : Type} {lt lt' : α → α → Prop} {s t : List α} (h : Before lt s t) (hi : ∀ a ∈ s, ∀ b ∈ t, lt a b → lt' a b) :
    Before lt' s t := by
  cases h with
  | longer => exact .longer
  | differ h => exact .differ (hi _ (by simp) _ (by simp) h)

theorem cmpStr_before (s t : Str) : cmpStr s t < 0 ↔ Before (fun c d => c.toNat < d.toNat) s t := by
  rw [cmpStr_eq_list]
  have := (cmpList_before (c := fun (a b : Char) => cmpInt (a.toNat : Int) (b.toNat : Int)) (P := fun _ => True)
    (fun a b _ _ => by rw [cmpInt_eq, Int.ofNat_inj, Char.toNat_inj]) s t (by simp) (by simp)).1
  rw [this]
  exact ⟨fun h => before_imp h fun a _ b _ h => by rw [cmpInt_lt] at h; omega,
    fun h => before_imp h fun a _ b _ h => by rw [cmpInt_lt]; omega⟩

/-! ## Identifiers -/

theorem bigInt_plain {i : Str} (hi : Ident i) (hp : ∀ t, i = '-' :: t → t = [] ∨ ∃ c ∈ t, ¬ Digit c) :
    bigInt? i = (digits? i).map Int.ofNat := by
  have no : ∀ c (t : Str), ¬ Digit c → digits? (c :: t) = none := fun c t hc => by
    have : isDigit c = false := by
      rw [Bool.eq_false_iff]; exact fun h => hc (isDigit_iff.mp h)
    simp [digits?, this]
  unfold bigInt?
  split
  · rename_i ds
    rw [no '-' ds (fun h => absurd (digit_nat.mp h) (by decide))]
    have : digits? ds = none := by
      unfold digits?
      rw [if_neg]
      rintro ⟨h1, h2⟩
      rcases hp ds rfl with h | ⟨c, hc, hd⟩
      · exact h1 h
      · exact hd (isDigit_iff.mp (List.all_eq_true.mp h2 c hc))
    rw [this]; rfl
  · rename_i ds
    have := hi.2 '+' (List.mem_cons_self ..)
    exact absurd this (by unfold Digit; decide)
  · rfl

theorem digits_none {i : Str} (hi : i ≠ []) : digits? i = none ↔ ∃ c ∈ i, ¬ Digit c := by
  unfold digits?
  constructor
  · intro h
    refine Classical.byContradiction fun hn => ?_
    rw [if_pos ⟨hi, List.all_eq_true.mpr fun c hc => isDigit_iff.mpr (Classical.byContradiction fun h' => hn ⟨c, hc, h'⟩)⟩] at h
    cases h
  · rintro ⟨c, hc, hd⟩
    rw [if_neg]
    exact fun h => hd (isDigit_iff.mp (List.all_eq_true.mp h.2 c hc))

/-- Identifiers that mean the same to the comparison as to the specification. -/
def PlainId (i : Str) : Prop := PreId i ∧ ∀ t, i = '-' :: t → t = [] ∨ ∃ c ∈ t, ¬ Digit c

theorem cmpIdent_before {a b : Str} (ha : PlainId a) (hb : PlainId b) :
    (cmpIdent a b < 0 ↔ IdBefore a b) ∧ (cmpIdent a b = 0 ↔ a = b) := by
  unfold cmpIdent
  rw [bigInt_plain ha.1.1 ha.2, bigInt_plain hb.1.1 hb.2]
  cases ea : digits? a with
  | none =>
    have na := (digits_none ha.1.1.1).mp ea
    cases eb : digits? b with
    | none =>
      have nb := (digits_none hb.1.1.1).mp eb
      simp only [Option.map_some, Option.map_none]
      refine ⟨?_, cmpStr_eq a b⟩
      rw [cmpStr_before]
      refine ⟨fun h => .texts na nb h, fun h => ?_⟩
      cases h with
      | numbers h1 h2 h3 => rw [decimal_iff, ea] at h1; cases h1
      | texts _ _ h => exact h
      | mixed h1 h2 => rw [decimal_iff, ea] at h1; cases h1
    | some n =>
      simp only [Option.map_some, Option.map_none]
      refine ⟨⟨fun h => absurd h (by decide), fun h => ?_⟩, ⟨fun h => absurd h (by decide), fun h => by rw [h, eb] at ea; cases ea⟩⟩
      cases h with
      | numbers h1 h2 h3 => rw [decimal_iff, ea] at h1; cases h1
      | texts _ nb _ => rw [(digits_none hb.1.1.1).mpr nb] at eb; cases eb
      | mixed h1 h2 => rw [decimal_iff, ea] at h1; cases h1
  | some m =>
    have da := decimal_iff.mpr ea
    cases eb : digits? b with
    | none =>
      have nb := (digits_none hb.1.1.1).mp eb
      simp only [Option.map_some, Option.map_none]
      exact ⟨⟨fun _ => .mixed da nb, fun _ => by decide⟩, ⟨fun h => absurd h (by decide), fun h => by rw [h, eb] at ea; cases ea⟩⟩
    | some n =>
      have db := decimal_iff.mpr eb
      simp only [Option.map_some, Option.map_none]
      rw [cmpInt_lt, cmpInt_eq, Int.ofNat_eq_natCast, Int.ofNat_eq_natCast]
      refine ⟨⟨fun h => .numbers da db (by omega), fun h => ?_⟩, ⟨fun h => ?_, fun h => ?_⟩⟩
      · cases h with
        | numbers h1 h2 h3 =>
          rw [decimal_iff, ea] at h1; rw [decimal_iff, eb] at h2
          injection h1 with h1; injection h2 with h2
          omega
        | texts na _ _ => rw [(digits_none ha.1.1.1).mpr na] at ea; cases ea
        | mixed _ nb => rw [(digits_none hb.1.1.1).mpr nb] at eb; cases eb
      · have da' := numeral_decimal.mp da.2
        have db' := numeral_decimal.mp db.2
        exact number_inj (ha.1.2 da'.1) (hb.1.2 db'.1) (by omega)
      · rw [h, eb] at ea; injection ea with ea; omega

/-! ## Texts of versions -/

theorem scan_digits (ds rest : Str) (hd : ∀ c ∈ ds, Digit c) : ∀ comps cur e, scan comps cur e (ds ++ rest) = scan comps (cur ++ ds) e rest := by
  induction ds with
  | nil => simp
  | cons c ds ih =>
    intro comps cur e
    rw [List.cons_append, scan, if_pos (isDigit_iff.mpr (hd c (List.mem_cons_self ..))),
      ih (fun d h => hd d (List.mem_cons_of_mem _ h))]
    simp

theorem not_isDigit {c : Char} (h : ¬ (48 ≤ c.toNat ∧ c.toNat ≤ 57)) : isDigit c = false := by
  rw [Bool.eq_false_iff]
  exact fun h' => h (digit_nat.mp (isDigit_iff.mp h'))

theorem scan_dot {comps : List Nat} {cur rest : Str} {e : Bool} (hc : cur ≠ []) :
    scan comps cur e ('.' :: rest) = scan (comps ++ [decimal cur]) [] true rest := by
  rw [scan, if_neg (by rw [not_isDigit (by decide)]; simp)]
  simp [hc]

theorem scan_end {comps : List Nat} {cur t : Str} {pre : List Str} {e : Bool} (hc : cur ≠ []) (ht : Ending t pre) :
    scan comps cur e t = ⟨comps ++ [decimal cur], t⟩ := by
  have cons : ∀ c rest, c = '+' ∨ c = '-' → scan comps cur e (c :: rest) = ⟨comps ++ [decimal cur], c :: rest⟩ := by
    intro c rest h
    have hd : isDigit c = false := by rcases h with rfl | rfl <;> exact not_isDigit (by decide)
    have hn : c ≠ '.' := by rcases h with rfl | rfl <;> decide
    rw [scan, if_neg (by rw [hd]; simp)]
    simp [hc, hn]
  cases ht with
  | none => simp [scan, hc]
  | build => exact cons _ _ (.inl rfl)
  | pre => exact cons _ _ (.inr rfl)
  | preBuild => exact cons _ _ (.inr rfl)

theorem trim_digit {c : Char} {t : Str} (h : Digit c) : trimPrefix (c :: t) g!"v" = c :: t := by
  have : c ≠ 'v' := fun e => by rw [e] at h; exact absurd (digit_nat.mp h) (by decide)
  simp [trimPrefix, hasPrefix, Ne.symm this]

theorem parseLike_of_scan {max : Nat} {s t : Str} {v : Like} (ht : trimPrefix s g!"v" = t) (h : scan [] [] false t = v)
    (hl : v.components.length ≤ max) : parseLike max s = v := by
  unfold parseLike
  simp only [ht, h, hl, if_true]

theorem written_parse {s : Str} {v : Version} (h : Written s v) :
    ∃ t, Ending t v.pre ∧ ∀ max, 3 ≤ max → parseLike max s = ⟨[v.major, v.minor, v.patch], t⟩ := by
  have core : ∀ {a b c t : Str} {x y z : Nat} {pre : List Str}, Decimal a x → Decimal b y → Decimal c z → Ending t pre →
      scan [] [] false (a ++ '.' :: b ++ '.' :: c ++ t) = ⟨[x, y, z], t⟩ := by
    intro a b c t x y z pre ha hb hc ht
    have ha' := numeral_decimal.mp ha.2
    have hb' := numeral_decimal.mp hb.2
    have hc' := numeral_decimal.mp hc.2
    have e : a ++ '.' :: b ++ '.' :: c ++ t = a ++ ('.' :: (b ++ ('.' :: (c ++ t)))) := by simp
    rw [e, scan_digits a _ ha'.1, List.nil_append, scan_dot ha.1, scan_digits b _ hb'.1, List.nil_append (as := b), scan_dot hb.1,
      scan_digits c _ hc'.1, List.nil_append (as := c), scan_end hc.1 ht, ha'.2, hb'.2, hc'.2]
    rfl
  cases h with
  | plain ha hb hc ht =>
    rename_i a b c t x y z pre
    refine ⟨t, ht, fun max hm => parseLike_of_scan ?_ (core ha hb hc ht) hm⟩
    cases a with
    | nil => exact absurd rfl ha.1
    | cons d a => exact trim_digit ((numeral_decimal.mp ha.2).1 d (List.mem_cons_self ..))
  | v ha hb hc ht =>
    rename_i a b c t x y z pre
    refine ⟨t, ht, fun max hm => parseLike_of_scan ?_ (core ha hb hc ht) hm⟩
    simp [trimPrefix, hasPrefix]

theorem ident_no {i : Str} (hi : Ident i) : '+' ∉ i ∧ '.' ∉ i := by
  constructor <;> intro h <;> have := hi.2 _ h <;> exact absurd this (by unfold Digit; decide)

theorem joined_no {i : Str} {ids : List Str} (h : ∀ j ∈ i :: ids, PreId j) : '+' ∉ i ++ ids.flatMap ('.' :: ·) := by
  simp only [List.mem_append, List.mem_flatMap, List.mem_cons, not_or, not_exists, not_and]
  refine ⟨(ident_no (h i (List.mem_cons_self ..)).1).1, fun j hj => ⟨by decide, (ident_no (h j (List.mem_cons_of_mem _ hj)).1).1⟩⟩

theorem split_joined (i : Str) (ids : List Str) (h : ∀ j ∈ i :: ids, '.' ∉ j) : splitChar '.' (i ++ ids.flatMap ('.' :: ·)) = i :: ids := by
  induction ids generalizing i with
  | nil => simpa using splitChar_of_not_mem '.' i (h i (List.mem_cons_self ..))
  | cons j ids ih =>
    rw [List.flatMap_cons, List.cons_append, splitChar_append _ _ _ (h i (List.mem_cons_self ..)),
      ih j fun k hk => h k (List.mem_cons_of_mem _ hk)]

theorem ending_prerelease {t : Str} {pre : List Str} (h : Ending t pre) :
    (pre = [] → prerelease t = []) ∧ (pre ≠ [] → prerelease t ≠ [] ∧ splitChar '.' (prerelease t) = pre) ∧ ∀ j ∈ pre, PreId j := by
  have some : ∀ {i : Str} {ids : List Str} {t : Str}, (∀ j ∈ i :: ids, PreId j) →
      (splitChar '+' t).headD [] = '-' :: (i ++ ids.flatMap ('.' :: ·)) →
      prerelease t ≠ [] ∧ splitChar '.' (prerelease t) = i :: ids := by
    intro i ids t h e
    have : prerelease t = i ++ ids.flatMap ('.' :: ·) := by
      unfold prerelease
      rw [e]
      simp [trimPrefix, hasPrefix]
    rw [this]
    refine ⟨fun e => (h i (List.mem_cons_self ..)).1.1 (List.append_eq_nil_iff.mp e).1, split_joined i ids fun j hj => (ident_no (h j hj).1).2⟩
  cases h with
  | none => exact ⟨fun _ => rfl, fun h => absurd rfl h, by simp⟩
  | build => exact ⟨fun _ => by simp [prerelease, splitChar, trimPrefix, hasPrefix], fun h => absurd rfl h, by simp⟩
  | pre h =>
    refine ⟨fun e => absurd e (by simp), fun _ => some h ?_, h⟩
    rw [splitChar_of_not_mem]
    · rfl
    · simp only [List.mem_cons, not_or]; exact ⟨by decide, joined_no h⟩
  | preBuild h =>
    refine ⟨fun e => absurd e (by simp), fun _ => some h ?_, h⟩
    rw [splitChar_append]
    · rfl
    · simp only [List.mem_cons, not_or]; exact ⟨by decide, joined_no h⟩

theorem cmpIdents_before {s t : List Str} (hs : ∀ i ∈ s, PlainId i) (ht : ∀ i ∈ t, PlainId i) :
    (cmpIdents s t < 0 ↔ Before IdBefore s t) ∧ (cmpIdents s t = 0 ↔ s = t) := by
  rw [cmpIdents_eq_list]
  have h := cmpList_before (c := cmpIdent) (P := PlainId) (fun a b ha hb => (cmpIdent_before ha hb).2) s t hs ht
  refine ⟨h.1.trans ⟨fun hb => before_imp hb fun a ha b hb h => (cmpIdent_before (hs a ha) (ht b hb)).1.mp h,
    fun hb => before_imp hb fun a ha b hb h => (cmpIdent_before (hs a ha) (ht b hb)).1.mpr h⟩, h.2⟩

theorem cmpThree (a b c x y z : Nat) : (cmpComponents [a, b, c] [x, y, z] < 0 ↔ a < x ∨ (a = x ∧ (b < y ∨ (b = y ∧ c < z)))) ∧
    (cmpComponents [a, b, c] [x, y, z] = 0 ↔ a = x ∧ b = y ∧ c = z) := by
  have e : cmpComponents [a, b, c] [x, y, z] =
      if cmpInt a x ≠ 0 then cmpInt a x else if cmpInt b y ≠ 0 then cmpInt b y else if cmpInt c z ≠ 0 then cmpInt c z else 0 := rfl
  have l1 := cmpInt_lt a x
  have l2 := cmpInt_lt b y
  have l3 := cmpInt_lt c z
  have e1 := cmpInt_eq a x
  have e2 := cmpInt_eq b y
  have e3 := cmpInt_eq c z
  rw [e]
  split
  · omega
  · split
    · omega
    · split <;> omega

theorem semver_precedence {s t : Str} {v w : Version} (hs : Written s v) (ht : Written t w) (hv : Plain v) (hw : Plain w) :
    (semver s t < 0 ↔ Precedes v w) ∧ (semver s t = 0 ↔ v = w) := by
  obtain ⟨s', es, ps⟩ := written_parse hs
  obtain ⟨t', et, pt⟩ := written_parse ht
  have ⟨vn, vs, vi⟩ := ending_prerelease es
  have ⟨wn, ws, wi⟩ := ending_prerelease et
  have hvp : ∀ i ∈ v.pre, PlainId i := fun i hi => ⟨vi i hi, hv i hi⟩
  have hwp : ∀ i ∈ w.pre, PlainId i := fun i hi => ⟨wi i hi, hw i hi⟩
  have h3 := cmpThree v.major v.minor v.patch w.major w.minor w.patch
  have build : (cmpBuild s' t' < 0 ↔ v.pre ≠ [] ∧ (w.pre = [] ∨ Before IdBefore v.pre w.pre)) ∧ (cmpBuild s' t' = 0 ↔ v.pre = w.pre) := by
    unfold cmpBuild
    dsimp only
    by_cases h1 : v.pre = []
    · by_cases h2 : w.pre = []
      · rw [vn h1, wn h2, h1, h2]
        exact ⟨by simp; decide, by simp; decide⟩
      · rw [if_pos ⟨vn h1, (ws h2).1⟩]
        simp [h1]
        exact h2
    · by_cases h2 : w.pre = []
      · rw [if_neg (fun h => (vs h1).1 h.1), if_pos ⟨(vs h1).1, wn h2⟩]
        simp [h1, h2]
      · rw [if_neg (fun h => (vs h1).1 h.1), if_neg (fun h => (ws h2).1 h.2), (vs h1).2, (ws h2).2]
        have := cmpIdents_before hvp hwp
        simp only [h1, h2, ne_eq, not_false_eq_true, true_and, false_or]
        exact this
  unfold semver
  rw [ps 3 (Nat.le_refl _), pt 3 (Nat.le_refl _)]
  dsimp only
  have prec : Precedes v w ↔ v.major < w.major ∨ (v.major = w.major ∧ (v.minor < w.minor ∨ (v.minor = w.minor ∧ v.patch < w.patch))) ∨
      (v.major = w.major ∧ v.minor = w.minor ∧ v.patch = w.patch) ∧ v.pre ≠ [] ∧ (w.pre = [] ∨ Before IdBefore v.pre w.pre) := by
    constructor
    · intro h
      cases h with
      | major h => exact .inl h
      | minor h1 h2 => exact .inr (.inl ⟨h1, .inl h2⟩)
      | patch h1 h2 h3 => exact .inr (.inl ⟨h1, .inr ⟨h2, h3⟩⟩)
      | release h1 h2 h3 h4 h5 => exact .inr (.inr ⟨⟨h1, h2, h3⟩, h4, .inl h5⟩)
      | pre h1 h2 h3 h4 h5 => exact .inr (.inr ⟨⟨h1, h2, h3⟩, h4, .inr h5⟩)
    · rintro (h | ⟨h1, h2 | ⟨h2, h3⟩⟩ | ⟨⟨h1, h2, h3⟩, h4, h5 | h5⟩)
      · exact .major h
      · exact .minor h1 h2
      · exact .patch h1 h2 h3
      · exact .release h1 h2 h3 h4 h5
      · exact .pre h1 h2 h3 h4 h5
  have ext : v = w ↔ (v.major = w.major ∧ v.minor = w.minor ∧ v.patch = w.patch) ∧ v.pre = w.pre := by
    cases v; cases w; simp [and_assoc]
  rw [prec, ext]
  generalize cmpComponents [v.major, v.minor, v.patch] [w.major, w.minor, w.patch] = d at h3
  by_cases hd : d = 0
  · have e := h3.2.mp hd
    rw [if_neg (by simpa using hd)]
    have n1 : ¬ v.major < w.major := by omega
    have n2 : ¬ (v.major = w.major ∧ (v.minor < w.minor ∨ (v.minor = w.minor ∧ v.patch < w.patch))) := by omega
    simp only [n1, n2, false_or]
    exact ⟨build.1.trans ⟨fun h => ⟨e, h⟩, fun h => h.2⟩, build.2.trans ⟨fun h => ⟨e, h⟩, fun h => h.2⟩⟩
  · have e := fun h => hd (h3.2.mpr h)
    rw [if_pos hd]
    exact ⟨h3.1.trans ⟨fun h => by rcases h with h | h; · exact .inl h
                                   · exact .inr (.inl h), fun h => by
        rcases h with h | h | h
        · exact .inl h
        · exact .inr h
        · exact absurd h.1 e⟩, ⟨fun h => absurd h hd, fun h => absurd h.1 e⟩⟩

theorem written_unique {s : Str} {v w : Version} (h : Written s v) (h' : Written s w) : v = w := by
  obtain ⟨t, e, p⟩ := written_parse h
  obtain ⟨t', e', p'⟩ := written_parse h'
  have hp := (p 3 (Nat.le_refl _)).symm.trans (p' 3 (Nat.le_refl _))
  injection hp with h1 h2
  subst h2
  have ⟨vn, vs, _⟩ := ending_prerelease e
  have ⟨wn, ws, _⟩ := ending_prerelease e'
  have hpre : v.pre = w.pre := by
    by_cases h1 : v.pre = []
    · by_cases h2 : w.pre = []
      · rw [h1, h2]
      · exact absurd (vn h1) (ws h2).1
    · by_cases h2 : w.pre = []
      · exact absurd (wn h2) (vs h1).1
      · rw [← (vs h1).2, (ws h2).2]
  cases v; cases w
  simp only [List.cons.injEq, and_true] at h1
  simp_all

end Osv.Semantic
