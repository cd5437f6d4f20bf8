import Verif.Spec.Maven
import Verif.Lemmas.RegexEval
import Verif.Lemmas.RegexMatch
import Verif.Lemmas.NuGet
/-! # Versions of pom.xml -/
namespace Osv
open Str Spec

namespace Maven

theorem lowerPart_unique {s v v' : Str} (h : LowerPart s v) (h' : LowerPart s v') : v = v' := by
  obtain ⟨b, r, e, hb, hr, hv⟩ := h
  obtain ⟨b', r', e', hb', hr', hv'⟩ := h'
  have key : ∀ (b b' r r' : Str), b ++ r = b' ++ r' → (∀ c ∈ b, c ≠ ',' ∧ c ≠ ')' ∧ c ≠ ']') →
      (∀ c ∈ b', c ≠ ',' ∧ c ≠ ')' ∧ c ≠ ']') → (r = [] ∨ ∃ c t, r = c :: t ∧ (c = ',' ∨ c = ')' ∨ c = ']')) →
      (r' = [] ∨ ∃ c t, r' = c :: t ∧ (c = ',' ∨ c = ')' ∨ c = ']')) → b = b' := by
    intro b
    induction b with
    | nil =>
      intro b' r r' e _ hb' hr hr'
      cases b' with
      | nil => rfl
      | cons c b' =>
        rw [List.nil_append] at e
        subst e
        rcases hr with h | ⟨d, t, h, hd⟩
        · cases h
        · injection h with h1 h2
          subst h1
          have := hb' c (by simp)
          rcases hd with h | h | h <;> simp [h] at this
    | cons c b ih =>
      intro b' r r' e hb hb' hr hr'
      cases b' with
      | nil =>
        rw [List.nil_append] at e
        subst e
        rcases hr' with h | ⟨d, t, h, hd⟩
        · cases h
        · injection h with h1 h2
          subst h1
          have := hb c (by simp)
          rcases hd with h | h | h <;> simp [h] at this
      | cons c' b' =>
        injection e with e1 e2
        rw [e1, ih b' r r' e2 (fun x hx => hb x (by simp [hx])) (fun x hx => hb' x (by simp [hx])) hr hr']
  have hbb := key b b' r r' (e.symm.trans e') hb hb' hr hr'
  subst hbb
  rcases hv with ⟨h1, rfl⟩ | ⟨h1, rfl⟩ <;> rcases hv' with ⟨h2, rfl⟩ | ⟨h2, rfl⟩
  · rfl
  · exact absurd h1 h2
  · exact absurd h2 h1
  · rfl

theorem lower_unique {s v v' : Str} (h : LowerBound s v) (h' : LowerBound s v') : v = v' := by
  rcases h with ⟨c, r, rfl, hc, h⟩ | ⟨hn, h⟩ <;> rcases h' with ⟨c', r', e, hc', h'⟩ | ⟨hn', h'⟩
  · injection e with _ e; subst e; exact lowerPart_unique h h'
  · rcases hc with rfl | rfl
    · exact absurd rfl (hn' _ _ rfl).1
    · exact absurd rfl (hn' _ _ rfl).2
  · subst e
    rcases hc' with rfl | rfl
    · exact absurd rfl (hn _ _ rfl).1
    · exact absurd rfl (hn _ _ rfl).2
  · exact lowerPart_unique h h'

theorem lowerPart_exists (s : Str) : ∃ v, LowerPart s v := by
  have : ∃ body rest, s = body ++ rest ∧ (∀ c ∈ body, c ≠ ',' ∧ c ≠ ')' ∧ c ≠ ']') ∧
      (rest = [] ∨ ∃ c r, rest = c :: r ∧ (c = ',' ∨ c = ')' ∨ c = ']')) := by
    induction s with
    | nil => exact ⟨[], [], rfl, by simp, Or.inl rfl⟩
    | cons c s ih =>
      by_cases h : c = ',' ∨ c = ')' ∨ c = ']'
      · exact ⟨[], c :: s, rfl, by simp, Or.inr ⟨c, s, rfl, h⟩⟩
      · obtain ⟨b, r, rfl, hb, hr⟩ := ih
        refine ⟨c :: b, r, rfl, ?_, hr⟩
        intro d hd
        rcases List.mem_cons.1 hd with rfl | hd
        · exact ⟨fun e => h (Or.inl e), fun e => h (Or.inr (Or.inl e)), fun e => h (Or.inr (Or.inr e))⟩
        · exact hb d hd
  obtain ⟨b, r, e, hb, hr⟩ := this
  by_cases h : b = []
  · exact ⟨g!"0", b, r, e, hb, hr, Or.inl ⟨h, rfl⟩⟩
  · exact ⟨b, b, r, e, hb, hr, Or.inr ⟨h, rfl⟩⟩

theorem lower_exists (s : Str) : ∃ v, LowerBound s v := by
  by_cases h : ∃ c r, s = c :: r ∧ (c = '[' ∨ c = '(')
  · obtain ⟨c, r, rfl, hc⟩ := h
    obtain ⟨v, hv⟩ := lowerPart_exists r
    exact ⟨v, Or.inl ⟨c, r, rfl, hc, hv⟩⟩
  · obtain ⟨v, hv⟩ := lowerPart_exists s
    exact ⟨v, Or.inr ⟨fun c r e => ⟨fun h' => h ⟨c, r, e, Or.inl h'⟩, fun h' => h ⟨c, r, e, Or.inr h'⟩⟩, hv⟩⟩

open Re in
/-- The part of the expression behind the bracket. -/
theorem first_part {β : Type} (f : Str × Str × Caps → Option β) (hf : ∀ t, (f t).isSome = true) (bol : Bool) (body rest : Str)
    (hb : ∀ c ∈ body, c ≠ ',' ∧ c ≠ ')' ∧ c ≠ ']') (hr : rest = [] ∨ ∃ c r, rest = c :: r ∧ (c = ',' ∨ c = ')' ∨ c = ']'))
    (hn : '\n' ∉ body) : ∃ x y, first (seq (cap 1 (star false any)) (alt (ch ',') (alt (cls fun c => c == ')' || c == ']') eot)))
      bol (body ++ rest) [] f = f (x, y, [(1, body)]) := by
  have hend : ∀ (k : Caps) (g : Str × Str × Caps → Option β), (rest = [] ∧ first (alt (ch ',') (alt (cls fun c => c == ')' || c == ']') eot))
      (bol && body.isEmpty) rest k g = g ([], [], k)) ∨ ∃ c r, rest = c :: r ∧ first (alt (ch ',') (alt (cls fun c => c == ')' || c == ']') eot))
      (bol && body.isEmpty) rest k g = g ([c], r, k) := by
    intro k g
    rcases hr with rfl | ⟨c, r, rfl, hc⟩
    · left
      simp [first_alt]
    · right
      refine ⟨c, r, rfl, ?_⟩
      rcases hc with rfl | rfl | rfl
      · simp [first_alt]
      · simp [first_alt]
      · simp [first_alt]
  rw [first_seq, first_cap]
  have hsome : ∃ x y, (fun r : Str × Str × Caps => first (alt (ch ',') (alt (cls fun c => c == ')' || c == ']') eot)) (bol && r.1.isEmpty)
      r.2.1 r.2.2 fun t => f (r.1 ++ t.1, t.2)) (body, rest, [(1, body)]) = f (x, y, [(1, body)]) := by
    rcases hend [(1, body)] (fun t => f (body ++ t.1, t.2)) with ⟨_, h⟩ | ⟨c, r, _, h⟩
    · exact ⟨_, _, h⟩
    · exact ⟨_, _, h⟩
  obtain ⟨x, y, hxy⟩ := hsome
  refine ⟨x, y, ?_⟩
  obtain ⟨v, hv⟩ := Option.isSome_iff_exists.1 (hf (x, y, [(1, body)]))
  rw [hv]
  apply first_starL_some
  · simp only [List.all_eq_true]
    intro c hc
    simp only [bne_iff_ne]
    rintro rfl
    exact hn hc
  · dsimp only at hxy ⊢
    rw [hxy, hv]
  · intro a z hyz hz
    cases z with
    | nil => exact absurd rfl hz
    | cons c z =>
      have hc := hb c (by rw [hyz]; simp)
      simp [first_alt, hc.1, hc.2.1, hc.2.2]

open Re in
theorem parse_lower {s v : Str} (hn : '\n' ∉ s) (h : LowerBound s v) : mavenParseResolvedVersion s = v := by
  have key : ∀ body, (∃ x y, first mavenRequirementRe true s [] some = some (x, y, [(1, body)])) →
      ((body = [] ∧ v = g!"0") ∨ (body ≠ [] ∧ v = body)) → mavenParseResolvedVersion s = v := by
    rintro body ⟨x, y, e⟩ hv
    unfold mavenParseResolvedVersion
    rw [find_eq_findFrom, findFrom_here _ _ _ _ e]
    simp only [Found.group, List.lookup_cons, beq_self_eq_true, Option.getD_some]
    rcases hv with ⟨h1, h2⟩ | ⟨h1, h2⟩
    · rw [if_pos h1, h2]
    · rw [if_neg h1, h2]
  unfold mavenRequirementRe at key
  simp only [cat] at key
  rcases h with ⟨c, r, rfl, hc, body, rest, rfl, hb, hr, hv⟩ | ⟨hno, body, rest, rfl, hb, hr, hv⟩
  · refine key body ?_ hv
    have hnb : '\n' ∉ body := fun hx => hn (by simp [hx])
    rw [first_seq, first_opt, first_cls_cons]
    have hcc : (c == '[' || c == '(') = true := by rcases hc with rfl | rfl <;> rfl
    rw [if_pos hcc]
    obtain ⟨x, y, e⟩ := first_part (fun t => some (([c] : Str) ++ t.1, t.2)) (fun _ => rfl) (true && ([c] : Str).isEmpty) body rest hb hr hnb
    rw [e]
    exact ⟨_, _, rfl⟩
  · refine key body ?_ hv
    have hnb : '\n' ∉ body := fun hx => hn (by simp [hx])
    rw [first_seq, first_opt]
    obtain ⟨x, y, e⟩ := first_part (fun t => some (([] : Str) ++ t.1, t.2)) (fun _ => rfl) (true && ([] : Str).isEmpty) body rest hb hr hnb
    have hnone : ∀ f : Str × Str × Caps → Option (Str × Str × Caps), first (cls fun c => c == '[' || c == '(') true (body ++ rest) [] f = none := by
      intro f
      cases hbr : body ++ rest with
      | nil => rfl
      | cons c r =>
        obtain ⟨h1, h2⟩ := hno c r hbr
        rw [first_cls_cons, if_neg (by simp [h1, h2])]
    rw [hnone, Option.none_or, e]
    exact ⟨_, _, rfl⟩

theorem ref_inj {n n' r r' : Str} (h : Reference n ++ r = Reference n' ++ r') (hn : '}' ∉ n) (hn' : '}' ∉ n') : n = n' ∧ r = r' := by
  have e : n ++ '}' :: r = n' ++ '}' :: r' := by
    simpa [Reference] using h
  have h1 := cut?_char '}' n r hn
  rw [e, cut?_char '}' n' r' hn'] at h1
  have := Prod.mk.inj (Option.some.inj h1)
  exact ⟨this.1.symm, this.2.symm⟩

theorem interp_unique {props : SMap Str} {s : Str} {o o' : Option Str} (h : Interpolated props s o) (h' : Interpolated props s o') :
    o = o' := by
  induction h generalizing o' with
  | nil =>
    generalize hs : ([] : Str) = s at h'
    cases h' with
    | nil => rfl
    | char => cases hs
    | found => simp [Reference] at hs
    | missing => simp [Reference] at hs
  | char c s o hno _ ih =>
    generalize hs : c :: s = t at h'
    cases h' with
    | nil => cases hs
    | char c' s' o' _ h => injection hs with e1 e2; subst e1 e2; rw [ih h]
    | found name rest v o' hne hn => exact absurd hs (hno name rest hne hn)
    | missing name rest o' hne hn => exact absurd hs (hno name rest hne hn)
  | found name rest v o hne hn hp _ ih =>
    generalize hs : Reference name ++ rest = t at h'
    cases h' with
    | nil => simp [Reference] at hs
    | char c' s' o' hno _ => exact absurd hs.symm (hno name rest hne hn)
    | found name' rest' v' o' hne' hn' hp' h =>
      obtain ⟨rfl, rfl⟩ := ref_inj hs hn hn'
      rw [hp] at hp'; injection hp' with hp'
      rw [hp', ih h]
    | missing name' rest' o' hne' hn' hp' h =>
      obtain ⟨rfl, rfl⟩ := ref_inj hs hn hn'
      rw [hp] at hp'; cases hp'
  | missing name rest o hne hn hp _ ih =>
    generalize hs : Reference name ++ rest = t at h'
    cases h' with
    | nil => simp [Reference] at hs
    | char c' s' o' hno _ => exact absurd hs.symm (hno name rest hne hn)
    | found name' rest' v' o' hne' hn' hp' h =>
      obtain ⟨rfl, rfl⟩ := ref_inj hs hn hn'
      rw [hp] at hp'; cases hp'
    | missing => rfl

theorem interp_exists (props : SMap Str) (s : Str) : ∃ o, Interpolated props s o := by
  have : ∀ n (s : Str), s.length = n → ∃ o, Interpolated props s o := by
    intro n
    induction n using Nat.strongRecOn with
    | _ n ih =>
      intro s hl
      cases s with
      | nil => exact ⟨_, .nil⟩
      | cons c s =>
        by_cases h : ∃ name rest, name ≠ [] ∧ '}' ∉ name ∧ c :: s = Reference name ++ rest
        · obtain ⟨name, rest, hne, hn, e⟩ := h
          obtain ⟨o, ho⟩ := ih rest.length (by rw [← hl, e]; simp [Reference]; omega) rest rfl
          rw [e]
          cases hp : props.get? name with
          | none => exact ⟨_, .missing name rest o hne hn hp ho⟩
          | some v => exact ⟨_, .found name rest v o hne hn hp ho⟩
        · obtain ⟨o, ho⟩ := ih s.length (by rw [← hl]; simp) s rfl
          exact ⟨_, .char c s o (fun name rest hne hn e => h ⟨name, rest, hne, hn, e⟩) ho⟩
  exact this s.length s rfl

theorem version_unique {props : SMap Str} {s v v' : Str} (h : MavenVersion props s v) (h' : MavenVersion props s v') : v = v' := by
  rcases h with ⟨t, h, hl⟩ | ⟨h, rfl⟩ <;> rcases h' with ⟨t', h', hl'⟩ | ⟨h', rfl⟩
  · have := interp_unique h h'
    injection this with this
    subst this
    exact lower_unique hl hl'
  · have := interp_unique h h'; cases this
  · have := interp_unique h h'; cases this
  · rfl

theorem version_exists (props : SMap Str) (s : Str) : ∃ v, MavenVersion props s v := by
  obtain ⟨o, ho⟩ := interp_exists props s
  cases o with
  | none => exact ⟨_, Or.inr ⟨ho, rfl⟩⟩
  | some t =>
    obtain ⟨v, hv⟩ := lower_exists t
    exact ⟨v, Or.inl ⟨t, ho, hv⟩⟩

/-- Text without references. -/
def Plain (s : Str) : Prop := ∀ a b, s ≠ a ++ g!"${" ++ b

theorem interp_plain (props : SMap Str) (s : Str) (h : Plain s) : Interpolated props s (some s) := by
  induction s with
  | nil => exact .nil
  | cons c s ih =>
    have := Interpolated.char (properties := props) c s (some s)
      (fun name rest _ _ e => h [] (name ++ g!"}" ++ rest) (by rw [e]; simp [Reference]))
      (ih fun a b e => h (c :: a) b (by rw [e]; simp))
    exact this

open Re in
theorem resolve_plain (props : SMap Str) (s : Str) (h : Plain s) : mavenResolveVersionValue props s = s := by
  unfold mavenResolveVersionValue
  cases hf : find mavenInterpolationRe s with
  | none => rfl
  | some f =>
    obtain ⟨e, hm⟩ := findFrom_sound _ _ _ _ hf
    unfold mavenInterpolationRe at hm
    rw [matches_cat_cons] at hm
    obtain ⟨x, y, k1, h1, h2, h3⟩ := hm
    obtain ⟨rfl, _⟩ := matches_lit.1 h2
    exact absurd e (by rw [h1]; simpa using h f.pre (y ++ f.post))

open Re in
theorem resolve_ref (props : SMap Str) (name : Str) (hne : name ≠ []) (hn : '\n' ∉ name) :
    mavenResolveVersionValue props (Reference name) = (props.get? name).getD g!"0" := by
  obtain ⟨c, n, rfl⟩ : ∃ c n, name = c :: n := by
    cases name with
    | nil => exact absurd rfl hne
    | cons c n => exact ⟨c, n, rfl⟩
  simp only [List.mem_cons, not_or] at hn
  have hfirst : ∃ x y, first mavenInterpolationRe true (Reference (c :: n)) [] some = some (x, y, [(1, c :: n)]) := by
    refine ⟨Reference (c :: n), [], ?_⟩
    unfold mavenInterpolationRe
    simp only [cat]
    rw [first_seq, first_lit, if_pos (by simp [Reference, List.isPrefixOf])]
    rw [first_seq, first_cap]
    unfold plus
    rw [first_seq]
    have hd : (Reference (c :: n)).drop (g!"${").length = c :: (n ++ g!"}") := by simp [Reference]
    dsimp only
    rw [hd]
    unfold any
    rw [first_cls_cons, if_pos (by simp [Ne.symm hn.1])]
    apply first_starG_some
    · simp only [List.all_eq_true, bne_iff_ne]
      rintro d hd rfl
      exact hn.2 hd
    · dsimp only
      rw [first_ch_cons, if_pos (by simp)]
      simp [Reference]
    · intro y z e hy _
      cases y with
      | nil => exact absurd rfl hy
      | cons d y =>
        injection e with e1 e2
        have : z = [] := (List.append_eq_nil_iff.1 e2.symm).2
        subst this
        exact first_ch_nil _ _ _ _
  obtain ⟨x, y, e⟩ := hfirst
  unfold mavenResolveVersionValue
  rw [find_eq_findFrom, findFrom_here _ _ _ _ e]
  simp only [Found.group, List.lookup_cons, beq_self_eq_true, Option.getD_some]
  cases props.get? (c :: n) <;> rfl

/-- What the program makes of versions that are a reference or contain none. -/
theorem resolve_spec (props : SMap Str) (hp : ∀ n v, props.get? n = some v → '\n' ∉ v) (s : Str) (hn : '\n' ∉ s)
    (hs : Plain s ∨ ∃ name, name ≠ [] ∧ '}' ∉ name ∧ s = Reference name) : MavenVersion props s (mavenResolveVersion props s) := by
  unfold mavenResolveVersion
  rcases hs with hs | ⟨name, hne, hb, rfl⟩
  · rw [resolve_plain props s hs]
    obtain ⟨v, hv⟩ := lower_exists s
    rw [parse_lower hn hv]
    exact Or.inl ⟨s, interp_plain props s hs, hv⟩
  · rw [resolve_ref props name hne fun h => hn (by simp [Reference, h])]
    cases hg : props.get? name with
    | none =>
      refine Or.inr ⟨?_, ?_⟩
      · have := Interpolated.missing (properties := props) name [] _ hne hb hg .nil
        rwa [List.append_nil] at this
      · exact parse_lower (by decide) (Or.inr ⟨by simp, g!"0", [], rfl, by decide, Or.inl rfl, Or.inr ⟨by simp, rfl⟩⟩)
    | some v =>
      obtain ⟨w, hw⟩ := lower_exists v
      rw [Option.getD_some, parse_lower (hp name v hg) hw]
      refine Or.inl ⟨v, ?_, hw⟩
      have := Interpolated.found (properties := props) name [] v _ hne hb hg .nil
      simpa using this

end Maven
end Osv
