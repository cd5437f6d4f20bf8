import Verif.Lemmas.Json
import Verif.Lemmas.RegexMatch
import Verif.Model.LockPubspec
/-! # What leads to panics -/
namespace Osv
open Str

namespace Json

/-- The text `null`, with white space around it. -/
theorem parse_null (s : Str) : parse s = some .null ↔
    ∃ a b, (∀ c ∈ a, ws c = true) ∧ (∀ c ∈ b, ws c = true) ∧ s = a ++ g!"null" ++ b := by
  constructor
  · intro h
    unfold parse at h
    rw [show 2 * s.length + 2 = (2 * s.length + 1) + 1 from rfl] at h
    cases hv : parseVal (2 * s.length + 1 + 1) s with
    | none => rw [hv] at h; cases h
    | some x =>
      obtain ⟨v, r⟩ := x
      rw [hv] at h
      dsimp only at h
      by_cases hr : skipWs r = []
      · rw [if_pos hr] at h
        injection h with h
        subst h
        unfold parseVal at hv
        obtain ⟨⟨c, t⟩, h1, h2⟩ := Option.bind_eq_some_iff.1 hv
        dsimp only at h2
        have hs : ∃ a, (∀ c ∈ a, ws c = true) ∧ s = a ++ c :: t := by
          unfold next at h1
          refine ⟨s.takeWhile ws, fun d hd => ?_, ?_⟩
          · exact List.all_eq_true.1 (List.all_takeWhile (p := ws) (l := s)) d hd
          · cases hk : skipWs s with
            | nil => rw [hk] at h1; cases h1
            | cons d u =>
              rw [hk] at h1
              injection h1 with h1
              injection h1 with e1 e2
              subst e1 e2
              unfold skipWs at hk
              rw [← hk, List.takeWhile_append_dropWhile]
        obtain ⟨a, ha, rfl⟩ := hs
        by_cases c1 : c = '"'
        · rw [if_pos c1] at h2
          obtain ⟨_, _, e⟩ := Option.map_eq_some_iff.1 h2
          cases e
        rw [if_neg c1] at h2
        by_cases c2 : c = '{'
        · rw [if_pos c2] at h2
          obtain ⟨_, _, h2⟩ := Option.bind_eq_some_iff.1 h2
          split at h2
          · cases h2
          · obtain ⟨_, _, e⟩ := Option.map_eq_some_iff.1 h2
            cases e
        rw [if_neg c2] at h2
        by_cases c3 : c = '['
        · rw [if_pos c3] at h2
          obtain ⟨_, _, h2⟩ := Option.bind_eq_some_iff.1 h2
          split at h2
          · cases h2
          · obtain ⟨_, _, e⟩ := Option.map_eq_some_iff.1 h2
            cases e
        rw [if_neg c3] at h2
        by_cases c4 : c = 't'
        · rw [if_pos c4] at h2
          obtain ⟨_, _, e⟩ := Option.map_eq_some_iff.1 h2
          cases e
        rw [if_neg c4] at h2
        by_cases c5 : c = 'f'
        · rw [if_pos c5] at h2
          obtain ⟨_, _, e⟩ := Option.map_eq_some_iff.1 h2
          cases e
        rw [if_neg c5] at h2
        by_cases c6 : c = 'n'
        · rw [if_pos c6] at h2
          obtain ⟨y, hy, e⟩ := Option.map_eq_some_iff.1 h2
          injection e with _ e
          subst e
          unfold expect at hy
          by_cases hp : (g!"ull" : Str).isPrefixOf t = true
          · rw [if_pos hp] at hy
            injection hy with hy
            obtain ⟨u, rfl⟩ := List.isPrefixOf_iff_prefix.1 hp
            rw [show (g!"ull" ++ u).drop (g!"ull" : Str).length = u from rfl] at hy
            subst hy
            refine ⟨a, u, ha, all_of_dropWhile_nil hr, ?_⟩
            rw [c6]
            simp
          · rw [if_neg hp] at hy; cases hy
        rw [if_neg c6] at h2
        obtain ⟨_, _, e⟩ := Option.map_eq_some_iff.1 h2
        cases e
      · rw [if_neg hr] at h; cases h
  · rintro ⟨a, b, ha, hb, rfl⟩
    have hd : ∀ (a : Str) (r : Str), (∀ c ∈ a, ws c = true) → (a ++ r).dropWhile ws = r.dropWhile ws := by
      intro a r h
      induction a with
      | nil => rfl
      | cons c a ih =>
        rw [List.cons_append, List.dropWhile_cons_of_pos (h c (by simp))]
        exact ih fun d hd => h d (by simp [hd])
    have hn : next (a ++ g!"null" ++ b) = some ('n', g!"ull" ++ b) := by
      unfold next skipWs
      rw [List.append_assoc, hd _ _ ha]
      rfl
    unfold parse
    rw [show 2 * (a ++ g!"null" ++ b).length + 2 = (2 * (a ++ g!"null" ++ b).length + 1) + 1 from rfl]
    unfold parseVal
    rw [hn, Option.bind_some]
    have he : expect g!"ull" (g!"ull" ++ b) = some b := rfl
    have hb' : skipWs b = [] := by
      have := hd b [] hb
      rw [List.append_nil] at this
      exact this
    simp only [show ¬ ('n' : Char) = '"' by decide, show ¬ ('n' : Char) = '{' by decide, show ¬ ('n' : Char) = '[' by decide,
      show ¬ ('n' : Char) = 't' by decide, show ¬ ('n' : Char) = 'f' by decide, if_false, if_true, he, Option.map_some, hb']

end Json

namespace Re

/-- Whether there is a group with this number. -/
def hasGroup (n : Nat) : Re → Bool
  | .seq a b => a.hasGroup n || b.hasGroup n
  | .alt a b => a.hasGroup n || b.hasGroup n
  | .star _ a => a.hasGroup n
  | .cap m a => n == m || a.hasGroup n
  | _ => false

theorem lookup_unchanged {r : Re} {bol : Bool} {k k' : Caps} {x rest : Str} (h : Matches r bol k x rest k') (n : Nat)
    (hn : r.hasGroup n = false) : k'.lookup n = k.lookup n := by
  induction h with
  | eps => rfl
  | cls => rfl
  | seq _ _ ih1 ih2 =>
    simp only [hasGroup, Bool.or_eq_false_iff] at hn
    rw [ih2 hn.2, ih1 hn.1]
  | altL _ ih =>
    simp only [hasGroup, Bool.or_eq_false_iff] at hn
    exact ih hn.1
  | altR _ ih =>
    simp only [hasGroup, Bool.or_eq_false_iff] at hn
    exact ih hn.2
  | starNil => rfl
  | starCons _ _ _ ih1 ih2 => rw [ih2 hn, ih1 hn]
  | cap _ ih =>
    simp only [hasGroup, Bool.or_eq_false_iff] at hn
    rw [List.lookup_cons, hn.1]
    exact ih hn.2
  | bot => rfl
  | eot => rfl

end Re

namespace Pubspec

theorem decode_panic (n : PubspecNode) : n.decode = .panic ↔ n.asStruct = none ∧ n.asString = some none := by
  unfold PubspecNode.decode
  cases n.asStruct with
  | some m => simp
  | none =>
    cases n.asString with
    | none => simp
    | some o => cases o <;> simp

end Pubspec
end Osv
