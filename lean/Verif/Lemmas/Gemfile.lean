import Verif.Model.LockGemfile
import Verif.Spec.Gemfile
import Verif.Lemmas.Text
import Verif.Lemmas.RegexFirst
/-! # Lemmas on Gemfile.lock lines -/
namespace Osv.Gem
open Osv Str Spec

/-- What the end of the expression matches, and what it captures. -/
theorem tail_iff {bol : Bool} {k : Caps} {t v : Str} (hk : k.lookup 3 = none) (hn : '\n' ∉ t) :
    (∃ k', Re.Matches reGemTail bol k t [] k' ∧ (k'.lookup 3).getD [] = v) ↔ GemTail t v := by
  simp only [reGemTail, Re.cat, Re.any, Re.matches_seq, Re.matches_opt, Re.matches_ch, Re.matches_star_cls, Re.matches_cap,
    Re.matches_lit, Re.matches_eot]
  constructor
  · rintro ⟨k', ⟨y, z, k₁, rfl, h1, y2, z2, k₂, rfl, h2, rfl, -, rfl⟩, rfl⟩
    have hb : (y2 = [] ∨ y2 = g!"!") ∧ (k'.lookup 3) = k₁.lookup 3 := by
      rcases h2 with ⟨k3, ⟨rfl, rfl⟩, rfl⟩ | ⟨rfl, rfl⟩
      · exact ⟨Or.inr rfl, by simp [List.lookup]⟩
      · exact ⟨Or.inl rfl, rfl⟩
    obtain ⟨hb, e⟩ := hb
    rw [e, List.append_nil]
    rcases h1 with ⟨a, b, k3, rfl, ⟨rfl, rfl⟩, w, c, k4, rfl, ⟨k5, ⟨hw, rfl⟩, rfl⟩, d, e', k6, rfl, h3, rfl, rfl⟩ | ⟨rfl, rfl⟩
    · have hw' : '-' ∉ w := fun hm => (by have := hw _ hm; simp at this)
      rcases h3 with ⟨m, n, k7, rfl, ⟨rfl, rfl⟩, k8, ⟨hpl, rfl⟩, rfl⟩ | ⟨rfl, rfl⟩
      · have := GemTail.platform w n y2 hw' hb
        simpa [List.lookup] using this
      · have := GemTail.version w y2 hw' hb
        simpa [List.lookup] using this
    · rw [hk]
      exact .bare _ hb
  · intro h
    have bang : ∀ (b : Bool) (k : Caps) (y : Str), (y = [] ∨ y = g!"!") → ∃ k₂,
        ((∃ k₁, (y = ['!'] ∧ k₁ = k) ∧ k₂ = (5, y) :: k₁) ∨ y = [] ∧ k₂ = k) ∧ k₂.lookup 3 = k.lookup 3 := by
      rintro _ k y (rfl | rfl)
      · exact ⟨k, Or.inr ⟨rfl, rfl⟩, rfl⟩
      · exact ⟨(5, ['!']) :: k, Or.inl ⟨k, ⟨rfl, rfl⟩, rfl⟩, by simp [List.lookup]⟩
    cases h with
    | bare b hb =>
      obtain ⟨k₂, h2, e⟩ := bang true k t hb
      refine ⟨k₂, ⟨[], t, k, rfl, Or.inr ⟨rfl, rfl⟩, t, [], k₂, by simp, h2, rfl, trivial, rfl⟩, ?_⟩
      rw [e, hk]; rfl
    | version v b hv hb =>
      obtain ⟨k₂, h2, e⟩ := bang true ((3, v) :: k) b hb
      refine ⟨k₂, ⟨g!" (" ++ v ++ g!")", b, _, rfl, Or.inl ⟨g!" (", v ++ g!")", _, by simp, ⟨rfl, rfl⟩, v, g!")", _, rfl,
        ⟨_, ⟨?_, rfl⟩, rfl⟩, [], g!")", _, rfl, Or.inr ⟨rfl, rfl⟩, rfl, rfl⟩, b, [], k₂, by simp, h2, rfl, trivial, rfl⟩, ?_⟩
      · intro c hc; simp; rintro rfl; exact hv hc
      · rw [e]; simp [List.lookup]
    | platform v pl b hv hb =>
      obtain ⟨k₂, h2, e⟩ := bang true ((4, pl) :: (3, v) :: k) b hb
      refine ⟨k₂, ⟨g!" (" ++ v ++ g!"-" ++ pl ++ g!")", b, _, rfl, Or.inl ⟨g!" (", v ++ g!"-" ++ pl ++ g!")", _, by simp, ⟨rfl, rfl⟩, v,
        g!"-" ++ pl ++ g!")", _, by simp, ⟨_, ⟨?_, rfl⟩, rfl⟩, g!"-" ++ pl, g!")", _, rfl, Or.inl ⟨g!"-", pl, _, rfl, ⟨rfl, rfl⟩, _, ⟨?_, rfl⟩, rfl⟩, rfl, rfl⟩, b, [], k₂, by simp, h2, rfl, trivial, rfl⟩, ?_⟩
      · intro c hc; simp; rintro rfl; exact hv hc
      · intro c hc; simp; rintro rfl; exact hn (by simp [hc])
      · rw [e]; simp [List.lookup]

theorem paren_cancel {a b x y : Str} (hx : x = [] ∨ x = g!"!") (hy : y = [] ∨ y = g!"!")
    (e : a ++ g!")" ++ x = b ++ g!")" ++ y) : a = b := by
  have h := congrArg List.reverse e
  rcases hx with rfl | rfl <;> rcases hy with rfl | rfl <;> simp at h
  · exact h
  · exact h

theorem tail_unique {t v w : Str} (h : GemTail t v) (h' : GemTail t w) : v = w := by
  have nb : ∀ (b u : Str), (b = [] ∨ b = g!"!") → b ≠ g!" (" ++ u := by
    rintro b u (rfl | rfl) e <;> simp at e
  cases h with
  | bare b hb =>
    generalize ht : t = t' at h'
    cases h' with
    | bare => rfl
    | version v b' => rw [ht] at hb; exact absurd (by simp) (nb _ (w ++ g!")" ++ b') hb)
    | platform v pl b' => rw [ht] at hb; exact absurd (by simp) (nb _ (w ++ g!"-" ++ pl ++ g!")" ++ b') hb)
  | version v b hv hb =>
    generalize ht : g!" (" ++ v ++ g!")" ++ b = t at h'
    cases h' with
    | bare b' hb' => exact absurd ht.symm (by simpa using nb _ (v ++ g!")" ++ b) hb')
    | version w b' hw hb' => exact paren_cancel hb hb' (by simpa using ht)
    | platform w pl b' hw hb' =>
      have := paren_cancel (a := v) (b := w ++ g!"-" ++ pl) hb hb' (by simpa using ht)
      exact absurd (by rw [this]; simp) hv
  | platform v pl b hv hb =>
    generalize ht : g!" (" ++ v ++ g!"-" ++ pl ++ g!")" ++ b = t at h'
    cases h' with
    | bare b' hb' => exact absurd ht.symm (by simpa using nb _ (v ++ g!"-" ++ pl ++ g!")" ++ b) hb')
    | version w b' hw hb' =>
      have := paren_cancel (a := v ++ g!"-" ++ pl) (b := w) hb hb' (by simpa using ht)
      exact absurd (by rw [← this]; simp) hw
    | platform w pl' b' hw hb' =>
      have := paren_cancel (a := v ++ g!"-" ++ pl) (b := w ++ g!"-" ++ pl') hb hb' (by simpa using ht)
      have h1 := cut?_char '-' v pl hv
      have e : v ++ '-' :: pl = w ++ '-' :: pl' := by simpa using this
      rw [e, cut?_char '-' w pl' hw] at h1
      exact (Prod.mk.inj (Option.some.inj h1)).1.symm

theorem tail_caps {bol : Bool} {k k' : Caps} {t rest : Str} (h : Re.Matches reGemTail bol k t rest k') (n : Nat)
    (h3 : n ≠ 3) (h4 : n ≠ 4) (h5 : n ≠ 5) : k'.lookup n = k.lookup n := by
  simp only [reGemTail, Re.cat, Re.any, Re.matches_seq, Re.matches_opt, Re.matches_ch, Re.matches_star_cls, Re.matches_cap,
    Re.matches_lit, Re.matches_eot] at h
  obtain ⟨y, z, k₁, rfl, h1, y2, z2, k₂, rfl, h2, rfl, -, rfl⟩ := h
  have e : k'.lookup n = k₁.lookup n := by
    rcases h2 with ⟨k3, ⟨rfl, rfl⟩, rfl⟩ | ⟨rfl, rfl⟩
    · rw [List.lookup_cons, show (n == 5) = false by simpa using h5]
    · rfl
  rw [e]
  rcases h1 with ⟨a, b, k3, rfl, ⟨rfl, rfl⟩, w, c, k4, rfl, ⟨k5, ⟨hw, rfl⟩, rfl⟩, d, e', k6, rfl, h3', rfl, rfl⟩ | ⟨rfl, rfl⟩
  · rcases h3' with ⟨m, n', k7, rfl, ⟨rfl, rfl⟩, k8, ⟨hpl, rfl⟩, rfl⟩ | ⟨rfl, rfl⟩
    · rw [List.lookup_cons, show (n == 4) = false by simpa using h4]
      dsimp only
      rw [List.lookup_cons, show (n == 3) = false by simpa using h3]
    · rw [List.lookup_cons, show (n == 3) = false by simpa using h3]
  · rfl

theorem tail_rest {bol : Bool} {k k' : Caps} {x rest : Str} (h : Re.Matches reGemTail bol k x rest k') : rest = [] :=
  Re.cat_eot rfl h

/-- Shortest prefix with a property of the rest. -/
theorem shortest {P : Str → Prop} (t : Str) (h : P []) :
    ∃ x r, t = x ++ r ∧ P r ∧ ∀ a b, x = a ++ b → b ≠ [] → ¬ P (b ++ r) := by
  induction t with
  | nil => exact ⟨[], [], rfl, h, fun a b e hb => absurd (List.append_eq_nil_iff.1 e.symm).2 hb⟩
  | cons c t ih =>
    by_cases hp : P (c :: t)
    · exact ⟨[], c :: t, rfl, hp, fun a b e hb => absurd (List.append_eq_nil_iff.1 e.symm).2 hb⟩
    · obtain ⟨x, r, rfl, hr, hmin⟩ := ih
      refine ⟨c :: x, r, rfl, hr, ?_⟩
      intro a b e hb
      cases a with
      | nil =>
        simp at e
        rw [← e]; exact hp
      | cons d a =>
        simp at e
        exact hmin a b e.2 hb

/-- What the expression for specs finds in a line. -/
theorem spec_find (sp name tail v : Str) (hne : sp ≠ []) (hsp : ∀ c ∈ sp, c = ' ') (hns : ∀ t, name ++ tail ≠ ' ' :: t)
    (hn : '\n' ∉ name ++ tail) (ht : GemTail tail v) (hmin : ∀ a b w, name = a ++ b → b ≠ [] → ¬ GemTail (b ++ tail) w) :
    ∃ m, reGemSpec.find (sp ++ name ++ tail) = some m ∧ m.group 1 = sp ∧ m.group 2 = name ∧ m.group 3 = v := by
  cases sp with
  | nil => exact absurd rfl hne
  | cons c0 sp =>
    have hc0 := hsp c0 (by simp)
    subst hc0
    have hn1 : '\n' ∉ name := fun h => hn (by simp [h])
    have hn2 : '\n' ∉ tail := fun h => hn (by simp [h])
    rw [Re.find_anchored _ _ (by intro s; simp [reGemSpec])]
    obtain ⟨k', hm, hv⟩ := (tail_iff (bol := false) (k := [(2, name), (1, ' ' :: sp)]) (t := tail) (v := v) (by simp [List.lookup]) hn2).2 ht
    have hR : ∃ t, Re.first reGemTail false tail [(2, name), (1, ' ' :: sp)] some = some t ∧ t.2.1 = [] := by
      cases hf : Re.first reGemTail false tail [(2, name), (1, ' ' :: sp)] some with
      | none => exact absurd hm (Re.first_none_iff.1 hf tail [] k' (by simp))
      | some t => exact ⟨t, rfl, tail_rest (Re.first_some_sound hf).2⟩
    obtain ⟨t, hft, ht2⟩ := hR
    obtain ⟨e1, hmt⟩ := Re.first_some_sound hft
    rw [ht2, List.append_nil] at e1
    rw [ht2, ← e1] at hmt
    have key : Re.first reGemSpec true (' ' :: sp ++ name ++ tail) [] some =
        some (' ' :: sp ++ (name ++ t.1), t.2) := by
      simp only [reGemSpec, Re.plus, Re.first_seq, Re.first_bot, if_true, Re.first_cap, List.cons_append, Re.first_ch_cons]
      rw [List.append_assoc]
      apply Re.first_starG_run
      · exact List.all_eq_true.2 (fun c hc => by simp [hsp c (by simp [hc])])
      · intro c hc
        cases hnt : name ++ tail with
        | nil => rw [hnt] at hc; cases hc
        | cons d u =>
          rw [hnt] at hc
          simp at hc
          subst hc
          simp only [beq_eq_false_iff_ne, ne_eq]
          rintro rfl
          exact hns u hnt
      · apply Re.first_starL_some
        · exact List.all_eq_true.2 (fun c hc => by simp; rintro rfl; exact hn1 hc)
        · dsimp only
          simp only [List.nil_append, List.isEmpty_cons, Bool.and_false, Bool.false_and]
          rw [Re.first_map, hft]
          simp
        · intro y z e hz
          dsimp only
          rw [Re.first_map]
          rw [Option.map_eq_none_iff, Re.first_none_iff]
          intro x rest k2 e2 hmx
          have := tail_rest hmx
          subst this
          rw [List.append_nil] at e2
          subst e2
          exact hmin y z _ e hz ((tail_iff (by simp [List.lookup]) (by intro h; apply hn; rw [e]; simp at h ⊢; rcases h with h | h <;> simp [h])).1 ⟨k2, hmx, rfl⟩)
    rw [key]
    have hver : ((t.2.2.lookup 3).getD []) = v :=
      tail_unique ((tail_iff (by simp [List.lookup]) hn2).1 ⟨_, hmt, rfl⟩) ht
    refine ⟨_, rfl, ?_, ?_, ?_⟩
    · show (t.2.2.lookup 1).getD [] = _
      rw [tail_caps hmt 1 (by decide) (by decide) (by decide)]; rfl
    · show (t.2.2.lookup 2).getD [] = _
      rw [tail_caps hmt 2 (by decide) (by decide) (by decide)]; rfl
    · exact hver

/-- A line that does not start with a space is no spec. -/
theorem spec_none (l : Str) (h : ∀ t, l ≠ ' ' :: t) : reGemSpec.find l = none := by
  rw [Re.find_anchored _ _ (by intro s; simp [reGemSpec])]
  cases l with
  | nil => simp [reGemSpec, Re.plus]
  | cons c t =>
    have : c ≠ ' ' := fun e => h t (by rw [e])
    simp [reGemSpec, Re.plus, this]

/-- Every line that starts with a space splits into the spaces, the name and the rest. -/
theorem spec_split (l : Str) (h : ∃ t, l = ' ' :: t) : ∃ sp name tail v, l = sp ++ name ++ tail ∧ sp ≠ [] ∧
    (∀ c ∈ sp, c = ' ') ∧ (∀ t, name ++ tail ≠ ' ' :: t) ∧ GemTail tail v ∧
    ∀ a b w, name = a ++ b → b ≠ [] → ¬ GemTail (b ++ tail) w := by
  obtain ⟨sp, e, hsp, hh⟩ := dropWhile_split (· == ' ') l
  obtain ⟨name, tail, e2, ⟨v, hv⟩, hmin⟩ := shortest (P := fun r => ∃ w, GemTail r w) (l.dropWhile (· == ' ')) ⟨_, .bare [] (Or.inl rfl)⟩
  refine ⟨sp, name, tail, v, by rw [List.append_assoc, ← e2, ← e], ?_, by simpa using hsp, ?_, hv, ?_⟩
  · rintro rfl
    obtain ⟨t, rfl⟩ := h
    rw [List.nil_append] at e
    rw [← e] at hh
    exact absurd (hh ' ' rfl) (by decide)
  · intro t ht
    rw [e2, ht] at hh
    simp at hh
  · intro a b w e3 hb hw
    exact hmin a b e3 hb ⟨w, hw⟩

theorem len4 {sp : Str} (h : ∀ c ∈ sp, c = ' ') (hl : sp.length = 4) : sp = g!"    " := by
  match sp, hl with
  | [a, b, c, d], _ =>
    rw [h a (by simp), h b (by simp), h c (by simp), h d (by simp)]

/-- The spaces before the name are determined. -/
theorem spaces_unique {sp sp' a b : Str} (h : ∀ c ∈ sp, c = ' ') (h' : ∀ c ∈ sp', c = ' ') (ha : ∀ t, a ≠ ' ' :: t)
    (hb : ∀ t, b ≠ ' ' :: t) (e : sp ++ a = sp' ++ b) : sp = sp' ∧ a = b := by
  induction sp generalizing sp' with
  | nil =>
    cases sp' with
    | nil => exact ⟨rfl, e⟩
    | cons c sp' =>
      have := h' c (by simp)
      subst this
      exact absurd e (ha _)
  | cons c sp ih =>
    have hc := h c (by simp)
    subst hc
    cases sp' with
    | nil => exact absurd e.symm (hb _)
    | cons d sp' =>
      simp at e
      obtain ⟨rfl, e⟩ := e
      obtain ⟨rfl, h2⟩ := ih (fun c hc => h c (by simp [hc])) (fun c hc => h' c (by simp [hc])) e
      exact ⟨rfl, h2⟩

theorem name_unique {a b x y v w : Str} (e : a ++ x = b ++ y) (hx : GemTail x v) (hy : GemTail y w)
    (ha : ∀ c d w, a = c ++ d → d ≠ [] → ¬ GemTail (d ++ x) w)
    (hb : ∀ c d w, b = c ++ d → d ≠ [] → ¬ GemTail (d ++ y) w) : a = b ∧ x = y := by
  rcases List.append_eq_append_iff.1 e with ⟨t, h1, h2⟩ | ⟨t, h1, h2⟩
  · cases t with
    | nil => simp at h1 h2; exact ⟨h1.symm, h2⟩
    | cons c t => exact absurd (h2 ▸ hx) (hb a (c :: t) v h1 (by simp))
  · cases t with
    | nil => simp at h1 h2; exact ⟨h1, h2.symm⟩
    | cons c t => exact absurd (h2 ▸ hy) (ha b (c :: t) w h1 (by simp))

theorem specLine_unique {l n m v w : Str} (h : GemSpecLine l n v) (h' : GemSpecLine l m w) : n = m ∧ v = w := by
  obtain ⟨x, rfl, hx, hxt, hmin⟩ := h
  obtain ⟨y, e, hy, hyt, hmin'⟩ := h'
  have e2 : n ++ x = m ++ y := by
    rw [List.append_assoc, List.append_assoc] at e
    exact List.append_cancel_left e
  obtain ⟨rfl, rfl⟩ := name_unique e2 hxt hyt hmin hmin'
  exact ⟨rfl, tail_unique hxt hyt⟩

/-- `parseSpec` adds the gem of a line at spec level and nothing for other lines. -/
theorem parseSpec_spec (p : GemParser) (l : Str) (hn : '\n' ∉ l) :
    (∀ n v, GemSpecLine l n v → p.parseSpec l = p.addDependency n v) ∧
    ((∀ n v, ¬ GemSpecLine l n v) → p.parseSpec l = p) := by
  constructor
  · rintro n v ⟨tail, rfl, h1, h2, h3⟩
    obtain ⟨m, hf, g1, g2, g3⟩ := spec_find g!"    " n tail v (by simp) (by simp) h1 (fun h => hn (by simp at h ⊢; exact h)) h2 h3
    unfold GemParser.parseSpec
    rw [hf]
    dsimp only
    rw [g1, g2, g3]
    rfl
  · intro hno
    unfold GemParser.parseSpec
    by_cases hs : ∃ t, l = ' ' :: t
    · obtain ⟨sp, n, tail, v, rfl, hne, hsp, h1, h2, h3⟩ := spec_split l hs
      obtain ⟨m, hf, g1, g2, g3⟩ := spec_find sp n tail v hne hsp h1 (fun h => hn (by simp at h ⊢; exact Or.inr h)) h2 h3
      rw [hf]
      dsimp only
      rw [g1]
      by_cases hl : sp.length = 4
      · have := len4 hsp hl
        subst this
        exact absurd ⟨tail, rfl, h1, h2, h3⟩ (hno n v)
      · rw [if_neg hl]
    · rw [spec_none l (fun t e => hs ⟨t, e⟩)]

theorem option_whole : ∀ bol k x rest k', Re.Matches reGemOption bol k x rest k' → bol = true ∧ rest = [] :=
  Re.cat_whole rfl rfl

/-- Option lines start with exactly two spaces. -/
theorem option_two {l : Str} {k : Caps} (h : Re.Matches reGemOption true [] l [] k) : ∃ c t, l = ' ' :: ' ' :: c :: t ∧ c ≠ ' ' := by
  simp only [reGemOption, Re.cat, Re.any, Re.matches_seq, Re.matches_bot, Re.matches_plus_cls, Re.matches_cap, Re.matches_lit] at h
  obtain ⟨_, _, _, rfl, ⟨_, rfl, rfl⟩, _, _, _, rfl, ⟨rfl, rfl⟩, name, _, _, rfl, ⟨_, ⟨hne, hw, rfl⟩, rfl⟩, _⟩ := h
  cases name with
  | nil => exact absurd rfl hne
  | cons c name =>
    refine ⟨c, name ++ _, by simp; rfl, ?_⟩
    rintro rfl
    exact absurd (hw ' ' (by simp)) (by decide)

theorem option_revision (c : Str) (hn : '\n' ∉ c) : ∃ k, Re.Matches reGemOption true [] (g!"  revision: " ++ c) [] k := by
  simp only [reGemOption, Re.cat, Re.any, Re.matches_seq, Re.matches_bot, Re.matches_plus_cls, Re.matches_cap, Re.matches_lit, Re.matches_star_cls, Re.matches_eot]
  refine ⟨_, [], _, _, rfl, ⟨trivial, rfl, rfl⟩, g!"  ", g!"revision: " ++ c, _, rfl, ⟨rfl, rfl⟩, g!"revision", g!": " ++ c, _, rfl,
    ⟨_, ⟨by decide, by decide, rfl⟩, rfl⟩, g!": ", c, _, rfl, ⟨rfl, rfl⟩, c, [], _, by simp, ⟨_, ⟨?_, rfl⟩, rfl⟩, rfl, trivial, rfl⟩
  intro d hd
  simp
  rintro rfl
  exact hn hd

theorem find_matched {r : Re} (hr : ∀ bol k x rest k', Re.Matches r bol k x rest k' → bol = true ∧ rest = []) {s : Str} {f : Re.Found}
    (hf : r.find s = some f) : f.matched = s := by
  obtain ⟨e, hm⟩ := Re.findFrom_sound r true s f hf
  obtain ⟨h1, h2⟩ := hr _ _ _ _ _ hm
  simp at h1
  rw [h1, h2] at e
  simpa using e.symm

/-- `parseSource`: a revision sets the commit, a line at spec level adds a gem, other lines change nothing. -/
theorem parseSource_spec (p : GemParser) (l : Str) (hn : '\n' ∉ l) :
    (∀ c, Revision l c → p.parseSource l = { p with currentGemCommit := c }) ∧
    (∀ n v, GemSpecLine l n v → p.parseSource l = p.addDependency n v) ∧
    ((∀ c, ¬ Revision l c) → (∀ n v, ¬ GemSpecLine l n v) → p.parseSource l = p) := by
  obtain ⟨hfs, hfn⟩ := Re.find_whole option_whole l
  refine ⟨?_, ?_, ?_⟩
  · rintro c rfl
    unfold GemParser.parseSource
    rw [if_neg (by simp)]
    obtain ⟨k, hk⟩ := option_revision c (fun h => hn (by simp [h]))
    cases hf : reGemOption.find (g!"  revision: " ++ c) with
    | none => exact absurd hk (hfn hf k)
    | some m =>
      dsimp only
      rw [find_matched option_whole hf, trimPrefix_append]
      rw [if_pos]
      intro e
      have := congrArg List.length e
      simp at this
      omega
  · intro n v h
    have h4 := h
    obtain ⟨tail, rfl, _⟩ := h
    unfold GemParser.parseSource
    rw [if_neg (by simp)]
    cases hf : reGemOption.find (g!"    " ++ n ++ tail) with
    | none => exact (parseSpec_spec p _ hn).1 n v h4
    | some m =>
      obtain ⟨c, t, e, hc⟩ := option_two (hfs m hf)
      simp at e
      exact absurd e.1.symm hc
  · intro hr hs
    unfold GemParser.parseSource
    by_cases h1 : l = g!"  specs"
    · rw [if_pos h1]
    · rw [if_neg h1]
      cases hf : reGemOption.find l with
      | none => exact (parseSpec_spec p _ hn).2 hs
      | some m =>
        dsimp only
        rw [find_matched option_whole hf, trimPrefix_of_not (fun u e => hr u e), if_neg (by simp)]

theorem source_iff (l : Str) : isSourceSection l = true ↔ SourceWord l := by
  unfold isSourceSection SourceWord
  simp only [Bool.or_eq_true, contains_iff]
  constructor
  · rintro (((⟨a, b, rfl⟩ | ⟨a, b, rfl⟩) | ⟨a, b, rfl⟩) | ⟨a, b, rfl⟩)
    · exact ⟨a, _, b, rfl, by simp⟩
    · exact ⟨a, _, b, rfl, by simp⟩
    · exact ⟨a, _, b, rfl, by simp⟩
    · exact ⟨a, _, b, rfl, by simp⟩
  · rintro ⟨a, w, b, rfl, rfl | rfl | rfl | rfl⟩
    · exact Or.inl (Or.inl (Or.inl ⟨a, b, rfl⟩))
    · exact Or.inl (Or.inl (Or.inr ⟨a, b, rfl⟩))
    · exact Or.inl (Or.inr ⟨a, b, rfl⟩)
    · exact Or.inr ⟨a, b, rfl⟩

theorem unindented_iff (l : Str) : isNotIndented l = true ↔ Unindented l := by
  unfold isNotIndented reGemIndent Unindented
  rw [Re.isMatch_iff]
  simp only [Re.matches_seq, Re.matches_bot, Re.matches_cls]
  constructor
  · rintro ⟨pre, _, post, _, rfl, _, _, _, rfl, ⟨hp, rfl, rfl⟩, c, rfl, hc, rfl⟩
    simp at hp
    subst hp
    exact ⟨c, post, rfl, by simpa using hc⟩
  · rintro ⟨c, t, rfl, hc⟩
    exact ⟨[], [c], t, [], rfl, [], [c], [], rfl, ⟨rfl, rfl, rfl⟩, c, rfl, by simp [hc], rfl⟩

end Osv.Gem
