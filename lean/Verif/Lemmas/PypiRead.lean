import Verif.Lemmas.PypiText
import Verif.Lemmas.Semver
/-! Texts of PEP 440 versions are read as the versions they are the texts of. -/
namespace Osv.Pypi
open Str Semantic Spec.Pep440 Spec.ModText
open Spec.Precedence (Decimal Before)
open Semver (takeWhile_append_stop)

/-! ### The local version -/

theorem isSep_iff {c : Char} : isSep c = true ↔ SepChar c := by
  unfold isSep SepChar
  simp only [Bool.or_eq_true, beq_iff_eq]
  constructor
  · rintro ((h | h) | h)
    · exact .inl h
    · exact .inr (.inr h)
    · exact .inr (.inl h)
  · rintro (h | h | h)
    · exact .inl (.inl h)
    · exact .inr h
    · exact .inl (.inr h)

theorem isSeg_iff {c : Char} : isSeg c = true ↔ Digit c ∨ ('a' ≤ c ∧ c ≤ 'z') := by
  unfold isSeg
  simp only [Bool.or_eq_true, Bool.and_eq_true, decide_eq_true_eq, isDigit_iff]

theorem seg_not_sep {c : Char} (h : isSeg c = true) : isSep c = false := by
  cases e : isSep c with
  | false => rfl
  | true =>
    rcases isSep_iff.mp e with rfl | rfl | rfl <;> revert h <;> decide

theorem splitSep_plain : ∀ {t : Str}, (∀ c ∈ t, isSep c = false) → splitSep t = [t]
  | [], _ => rfl
  | c :: r, h => by
    unfold splitSep
    rw [if_neg (by rw [h c (by simp)]; decide), splitSep_plain fun d hd => h d (by simp [hd])]

theorem splitSep_sep {c : Char} (hc : isSep c = true) (r : Str) : ∀ {t : Str}, (∀ c ∈ t, isSep c = false) → splitSep (t ++ c :: r) = t :: splitSep r
  | [], _ => by
    show splitSep (c :: r) = _
    rw [splitSep, if_pos hc]
  | a :: t, h => by
    show splitSep (a :: (t ++ c :: r)) = _
    rw [splitSep, if_neg (by rw [h a (by simp)]; decide), splitSep_sep hc r fun d hd => h d (by simp [hd])]

theorem segs_read {r : Str} {ss : List Seg} (h : SegsText r ss) :
    (∀ c ∈ r, (isSeg c || isSep c) = true) ∧ ∃ ps, SegsRead ps ss ∧ (∀ p ∈ ps, p ≠ []) ∧
      ∀ t : Str, (∀ c ∈ t, isSep c = false) → splitSep (t ++ r) = t :: ps := by
  induction h with
  | nil =>
    refine ⟨fun _ h => absurd h (by simp), [], .nil, fun _ h => absurd h (by simp), fun t ht => ?_⟩
    rw [List.append_nil]
    exact splitSep_plain ht
  | @cons c t r s ss hc ht _ ih =>
    obtain ⟨h1, ps, h2, h4, h3⟩ := ih
    obtain ⟨k1, k2⟩ := segText_chars ht
    have k3 : ∀ c ∈ t, isSeg c = true := fun c hc => isSeg_iff.mpr (k2 c hc)
    refine ⟨fun a ha => ?_, t :: ps, .cons ht h2, fun p hp => ?_, fun u hu => ?_⟩
    · rcases List.mem_cons.mp ha with rfl | ha
      · rw [isSep_iff.mpr hc, Bool.or_true]
      · rcases List.mem_append.mp ha with ha | ha
        · rw [k3 a ha]; rfl
        · exact h1 a ha
    · rcases List.mem_cons.mp hp with rfl | hp
      · exact k1
      · exact h4 p hp
    · rw [splitSep_sep (isSep_iff.mpr hc) _ hu, h3 t fun c hc => seg_not_sep (k3 c hc)]

theorem blank_space {b : Str} (h : Blank b) : ∀ c ∈ b, isReSpace c = true ∧ (isSeg c || isSep c) = false := by
  intro c hc
  rcases h c hc with rfl | rfl | rfl | rfl | rfl <;> decide

theorem local_read {l b : Str} {ss : List Seg} (h : LocalText l ss) (hb : Blank b) :
    Base (l ++ b) ∧ ∃ ps, LocReads ps ss ∧ localPart (l ++ b) = some (ps, b) := by
  cases h with
  | none =>
    refine ⟨base_of fun c r e => .inr (hb c (by rw [show b = c :: r from e]; simp)), [[]], .none, ?_⟩
    show localPart b = _
    unfold localPart
    split
    · rename_i r
      have := hb '+' (by simp)
      exact absurd this (by decide)
    · rfl
  | some ht hr =>
    rename_i t r s ss
    obtain ⟨h1, ps, h2, h4, h3⟩ := segs_read hr
    obtain ⟨k1, k2⟩ := segText_chars ht
    have k3 : ∀ c ∈ t, isSeg c = true := fun c hc => isSeg_iff.mpr (k2 c hc)
    refine ⟨base_of fun c r e => .inl (by injection e with e _; exact e.symm), t :: ps, .some ht h2, ?_⟩
    obtain ⟨e1, e2⟩ := takeWhile_append_stop (p := fun c => isSeg c || isSep c) (t := t ++ r) (r := b)
      (fun c hc => by
        rcases List.mem_append.mp hc with hc | hc
        · show (isSeg c || isSep c) = true
          rw [k3 c hc]; rfl
        · exact h1 c hc)
      (fun c u e => (blank_space hb c (by rw [e]; simp)).2)
    show (if (splitSep ((t ++ r ++ b).takeWhile fun c => isSeg c || isSep c)).all (· ≠ []) then
      some (splitSep ((t ++ r ++ b).takeWhile fun c => isSeg c || isSep c), (t ++ r ++ b).dropWhile fun c => isSeg c || isSep c) else none) = _
    rw [e1, e2, h3 t fun c hc => seg_not_sep (k3 c hc), if_pos]
    rw [List.all_eq_true]
    intro p hp
    rcases List.mem_cons.mp hp with rfl | hp
    · exact decide_eq_true k1
    · exact decide_eq_true (h4 p hp)

/-! ### The release -/

theorem more_read {r R : Str} {ns : List Nat} (h : DotsText r ns) (hR : Ends R) :
    (∀ k, r.length ≤ k → more k (r ++ R) = (ns, R)) ∧ NoDigit (r ++ R) ∧ ∀ u, r ++ R ≠ '!' :: u := by
  induction h with
  | nil =>
    refine ⟨fun k _ => ?_, hR.digit, hR.bang⟩
    show more k R = _
    cases k with
    | zero => rfl
    | succ k =>
      unfold more
      dsimp only
      split
      · rename_i r
        rw [if_pos (takeWhile_digits (hR.dot r rfl))]
      · rfl
  | @cons d r n ns hd _ ih =>
    obtain ⟨i1, i2, _⟩ := ih
    refine ⟨fun k hk => ?_, fun a b e => ?_, fun u e => ?_⟩
    · obtain ⟨d1, d2, d3⟩ := decimal_read hd i2
      cases k with
      | zero => simp at hk
      | succ k =>
        have e : '.' :: (d ++ r) ++ R = '.' :: (d ++ (r ++ R)) := by simp
        rw [e]
        show (if (d ++ (r ++ R)).takeWhile isDigit = [] then ([], '.' :: (d ++ (r ++ R))) else
          (decimal ((d ++ (r ++ R)).takeWhile isDigit) :: (more k ((d ++ (r ++ R)).dropWhile isDigit)).1,
            (more k ((d ++ (r ++ R)).dropWhile isDigit)).2)) = _
        rw [d1, d2, d3, if_neg hd.1, i1 k (by simp at hk; omega)]
    · injection e with e _; subst e; unfold Digit; decide
    · injection e with e _; exact absurd e (by decide)

/-! ### Whole versions -/

theorem body_read {r r' p q d l b : Str} {x : Version} {n : Nat} {ns : List Nat} (hb : Blank b) (hr : Decimal r n) (hr' : DotsText r' ns)
    (hx : x.release = n :: ns) (hp : PreText p x.pre) (hq : PostText q x.post) (hc : Clear p q) (hd : DevText d x.dev) (hl : LocalText l x.loc) :
    (∃ a, body x.epoch (r ++ (r' ++ (p ++ (q ++ (d ++ (l ++ b)))))) = some a ∧ ReadsAs a x) ∧
      NoDigit (r' ++ (p ++ (q ++ (d ++ (l ++ b))))) ∧ ∀ u, r' ++ (p ++ (q ++ (d ++ (l ++ b)))) ≠ '!' :: u := by
  obtain ⟨b1, ps, b2, b3⟩ := local_read hl hb
  obtain ⟨d1, d2, d3, d4⟩ := dev_read hd b1
  obtain ⟨q1, q2, q3, q4, q5⟩ := post_read hq d1 d2 d3
  obtain ⟨p1, y, p2, p3⟩ := pre_read hp q1 q2 q3 q4 hc
  obtain ⟨y', q6, q7⟩ := q5 y p2
  have d5 := d4 y' q6
  obtain ⟨r1, r2, r3⟩ := more_read hr' p1
  obtain ⟨n1, n2, n3⟩ := decimal_read hr r2
  refine ⟨⟨⟨x.epoch, n :: ns, x.pre.map fun x => (letter x.1, x.2), x.post, x.dev, ps, none⟩, ?_, ?_⟩, r2, r3⟩
  · unfold body
    dsimp only
    rw [n1, n2, n3, r1 _ (by simp; omega)]
    dsimp only
    rw [p3]
    dsimp only
    rw [q7]
    dsimp only
    rw [d5]
    dsimp only
    rw [b3]
    dsimp only
    rw [if_pos (List.all_eq_true.mpr fun c hc => (blank_space hb c hc).1)]
    cases x.post <;> cases x.dev <;> rfl
  · exact ⟨⟨rfl, rfl, rfl⟩, rfl, hx.symm, b2, rfl⟩

theorem text_read {s : Str} {x : Version} (h : Text s x) : ∃ a, numbers (trimPrefix (s.dropWhile isReSpace) g!"v") = some a ∧ ReadsAs a x := by
  cases h with
  | intro hb hb' hv he hr hr' hx hp hq hc hd hl =>
    rename_i b b' v e r r' p q d l n ns
    obtain ⟨⟨a, k1, k2⟩, k3, k4⟩ := body_read hb' hr hr' hx hp hq hc hd hl
    refine ⟨a, ?_, k2⟩
    generalize hR : r' ++ (p ++ (q ++ (d ++ (l ++ b')))) = R at *
    obtain ⟨c, u, hu, hcu⟩ := decimal_head hr
    obtain ⟨n1, n2, n3⟩ := decimal_read hr k3
    -- the numbers
    obtain ⟨c', u', hu', hc', hnum⟩ : ∃ c' u', e ++ (r ++ R) = c' :: u' ∧ Digit c' ∧ numbers (e ++ (r ++ R)) = some a := by
      generalize he' : x.epoch = ep at he k1
      cases he with
      | none =>
        refine ⟨c, u ++ R, by rw [hu]; rfl, hcu, ?_⟩
        show numbers (r ++ R) = _
        unfold numbers
        rw [n1, n2, if_neg hr.1]
        split
        · rename_i t
          exact absurd rfl (k4 t)
        · exact k1
      | some hde =>
        rename_i de
        obtain ⟨c', u', hu', hc'⟩ := decimal_head hde
        have hnb : NoDigit ('!' :: (r ++ R)) := fun a b e => by injection e with e _; subst e; unfold Digit; decide
        obtain ⟨m1, m2, m3⟩ := decimal_read hde hnb
        have e0 : de ++ ['!'] ++ (r ++ R) = de ++ '!' :: (r ++ R) := by simp
        refine ⟨c', u' ++ '!' :: (r ++ R), by rw [e0, hu']; rfl, hc', ?_⟩
        rw [e0]
        unfold numbers
        rw [m1, m2, if_neg hde.1]
        show (if (r ++ R).takeWhile isDigit = [] then none else body (decimal de) (r ++ R)) = _
        rw [n1, if_neg hr.1, m3]
        exact k1
    have hsp : ∀ c0 u0, v ++ (e ++ (r ++ R)) = c0 :: u0 → isReSpace c0 = false := by
      intro c0 u0 e0
      rw [hu'] at e0
      rcases hv with rfl | rfl
      · injection e0 with e0 _
        subst e0
        cases hs : isReSpace c' with
        | false => rfl
        | true =>
          have : c' = '\t' ∨ c' = '\n' ∨ c' = '\x0c' ∨ c' = '\r' ∨ c' = ' ' := by simpa [isReSpace, or_assoc] using hs
          rcases this with rfl | rfl | rfl | rfl | rfl <;> exact absurd hc' (by unfold Digit; decide)
      · injection e0 with e0 _
        subst e0
        decide
    rw [(takeWhile_append_stop (fun c hc => (blank_space hb c hc).1) hsp).2]
    have htr : trimPrefix (v ++ (e ++ (r ++ R))) g!"v" = e ++ (r ++ R) := by
      rcases hv with rfl | rfl
      · rw [hu']
        have : c' ≠ 'v' := digit_ne hc' (by unfold Digit; decide)
        simp [trimPrefix, hasPrefix, List.isPrefixOf, this.symm]
      · simp [trimPrefix, hasPrefix, List.isPrefixOf]
    rw [htr, hnum]

theorem written_read (legacy : Str → Str) {s : Str} {x : Version} (h : Written s x) : ReadsAs (parse legacy s) x := by
  obtain ⟨a, h1, h2⟩ := text_read h
  unfold parse toLower
  rw [h1]
  exact h2

end Osv.Pypi
