import Verif.Lemmas.Describe
/-!
# C58: descriptions of advisories

Fails as stated: details without a space among the first 80 characters are cut after 80 bytes, which may be within a character
(`C58_counterexample`).
-/
namespace Osv
open Str Spec

/-- The full claim. -/
def C58_full : Prop := ∀ o : OSV, ∃ b t, o.describe = some b ∧ Encodes b t ∧ Description o t

theorem C58_counterexample : ¬ C58_full := by
  intro h
  obtain ⟨b, t, h1, h2, _⟩ := h { id := [], details := 'a' :: List.replicate 79 'é' }
  have hv : b.toByteArray.IsValidUTF8 := ⟨t, by rw [h2]; rfl⟩
  have : ∃ b', OSV.describe { id := [], details := 'a' :: List.replicate 79 'é' } = some b' ∧ ¬ b'.toByteArray.IsValidUTF8 :=
    ⟨[97] ++ (List.replicate 39 [0xc3, 0xa9]).flatten ++ [0xc3, 46, 46, 46], by decide +kernel, by decide +kernel⟩
  obtain ⟨b', h3, h4⟩ := this
  rw [h1] at h3
  cases h3
  exact h4 hv

/-- What is wanted of the details: they are short, have a space among the first 80 characters, or are ASCII so far. -/
def PlainDetails (d : Str) : Prop :=
  d.length < 80 ∨ (∃ c ∈ d.take 80, isSpace c = true) ∨ ∀ c ∈ d.take 80, c.utf8Size = 1

theorem C58_link (o : OSV) : ∃ link, LinkText o.id link ∧
    ∀ d : List UInt8, (if o.link ≠ [] then d ++ utf8Bytes g!" (" ++ utf8Bytes o.link ++ utf8Bytes g!")" else d) = d ++ utf8Bytes link := by
  unfold OSV.link LinkText
  by_cases h : hasPrefix o.id g!"GHSA" = true
  · rw [if_pos h]
    obtain ⟨r, hr⟩ := (hasPrefix_iff _ _).1 h
    refine ⟨_, .inl ⟨r, hr, rfl⟩, fun d => ?_⟩
    rw [if_pos (by simp)]
    simp [utf8Bytes, List.append_assoc]
  · rw [if_neg h]
    refine ⟨[], .inr ⟨fun r hr => h ((hasPrefix_iff _ _).2 ⟨r, hr⟩), rfl⟩, fun d => ?_⟩
    simp [utf8Bytes]

/-- Plain details are shortened as claimed. -/
theorem C58_truncate (d : Str) (h : PlainDetails d) : ∃ t, truncate d 80 = some (utf8Bytes t) ∧ Shortened 80 d t := by
  rcases Desc.truncate_cases d 80 (by decide) with ⟨h1, h2⟩ | ⟨pre, sp, mid, post, e, h1, h2, h3, h4⟩ | ⟨h1, h2, h3⟩
  · exact ⟨d, h2, .whole (by omega)⟩
  · exact ⟨_, h4, .word pre sp mid post e h1 h2 h3⟩
  · rcases h with h | ⟨c, hc, hs⟩ | h
    · omega
    · rw [h2 c hc] at hs; cases hs
    · refine ⟨d.take 80 ++ g!"...", ?_, .limit (d.take 80) (d.drop 80) (List.take_append_drop _ _).symm h2 (by simp; omega)⟩
      rw [h3, Desc.bytes_append]
      have hb : (utf8Bytes d).take 80 = utf8Bytes (d.take 80) := by
        have e : utf8Bytes d = utf8Bytes (d.take 80) ++ utf8Bytes (d.drop 80) := by
          rw [← Desc.bytes_append, List.take_append_drop]
        rw [e, List.take_left' (by rw [Desc.bytes_ascii _ h]; simp; omega)]
      rw [hb]

/-- The claim for plain details. Missing: details of 80 characters or more with no space but a character of several bytes among
the first 80, for which it is false. -/
theorem C58_partial (o : OSV) (h : o.summary ≠ [] ∨ PlainDetails o.details) :
    ∃ b t, o.describe = some b ∧ Encodes b t ∧ Description o t := by
  obtain ⟨link, hl, hd⟩ := C58_link o
  unfold OSV.describe
  by_cases hs : o.summary = []
  · simp only [hs, if_true]
    have hp := h.resolve_left (fun h => h hs)
    obtain ⟨t, ht, hsh⟩ := C58_truncate _ hp
    rw [ht]
    by_cases hdet : o.details = []
    · have : t = [] := by
        rw [hdet] at ht
        have h0 : truncate [] 80 = some (utf8Bytes []) := rfl
        rw [h0, Option.some.injEq] at ht
        exact Desc.bytes_eq_nil.1 ht.symm
      subst this
      refine ⟨_, _, rfl, ?_, .nothing link hs hdet hl⟩
      simp only [hd]
      rw [if_pos (by rfl), ← Desc.bytes_append]
      rfl
    · have htn : t ≠ [] := by
        cases hsh with
        | whole => exact hdet
        | word => simp
        | limit => simp
      refine ⟨_, _, rfl, ?_, .details t link hs hdet hsh hl⟩
      simp only [hd]
      rw [if_neg (by rw [Desc.bytes_eq_nil]; exact htn), ← Desc.bytes_append]
      rfl
  · simp only [hs, if_false, Option.map_some]
    refine ⟨_, _, rfl, ?_, .summary link hs hl⟩
    simp only [hd]
    rw [if_neg (by rw [Desc.bytes_eq_nil]; exact hs), ← Desc.bytes_append]
    rfl

theorem Desc.ascii_of_length (s : Str) (h : (utf8Bytes s).length = s.length) : ∀ c ∈ s, c.utf8Size = 1 := by
  induction s with
  | nil => simp
  | cons c s ih =>
    rw [Desc.bytes_cons_length, List.length_cons] at h
    have h1 := c.utf8Size_pos
    have h2 := Desc.length_le_bytes s
    intro d hd
    rcases List.mem_cons.1 hd with rfl | hd
    · omega
    · exact ih (by omega) d hd

theorem Desc.link_unique {id a b : Str} (ha : LinkText id a) (hb : LinkText id b) : a = b := by
  rcases ha with ⟨r, h1, rfl⟩ | ⟨h1, rfl⟩ <;> rcases hb with ⟨r', h2, rfl⟩ | ⟨h2, rfl⟩
  · rfl
  · exact absurd h1 (h2 r)
  · exact absurd h2 (h1 r')
  · rfl

/-- Exactly these advisories are described as claimed. The last case is that of details of 80 characters that end in an ellipsis
behind their first 80 bytes: they are cut there and get it back. -/
theorem C58_iff (o : OSV) : (∃ b t, o.describe = some b ∧ Encodes b t ∧ Description o t) ↔
    o.summary ≠ [] ∨ PlainDetails o.details ∨ (o.details.length = 80 ∧ (utf8Bytes o.details).drop 80 = utf8Bytes g!"...") := by
  constructor
  · rintro ⟨b, t, hb, ht, hdesc⟩
    by_cases hs : o.summary = []
    · right
      rcases Desc.truncate_cases o.details 80 (by decide) with ⟨h1, -⟩ | ⟨pre, sp, mid, post, e, h1, h2, h3, -⟩ | ⟨h1, h2, h3⟩
      · exact .inl (.inl h1)
      · refine .inl (.inr (.inl ⟨sp, ?_, h1⟩))
        rw [e, show pre ++ sp :: (mid ++ post) = (pre ++ sp :: mid) ++ post by simp, List.take_left' (by simp; omega)]
        simp
      · obtain ⟨link, hl, hd⟩ := C58_link o
        unfold OSV.describe at hb
        simp only [hs, if_true, h3, Option.map_some, Option.some.injEq, hd] at hb
        rw [if_neg (by simp [utf8Bytes])] at hb
        cases hdesc with
        | summary _ h => exact absurd hs h
        | nothing _ _ h => rw [h] at h1; simp at h1
        | details t link' _ _ hsh hl' =>
          obtain rfl := Desc.link_unique hl hl'
          have ht' : b = utf8Bytes t ++ utf8Bytes link := by rw [← Desc.bytes_append]; exact ht
          have hcut : (utf8Bytes o.details).take 80 ++ utf8Bytes g!"..." = utf8Bytes t :=
            List.append_cancel_right (hb.trans ht')
          cases hsh with
          | whole hle =>
            refine .inr ⟨by omega, ?_⟩
            have e := List.take_append_drop 80 (utf8Bytes o.details)
            exact (List.append_cancel_left (hcut.trans e.symm)).symm
          | word pre sp mid post e hsp _ hlen =>
            have : sp ∈ o.details.take 80 := by
              rw [e, show pre ++ sp :: (mid ++ post) = (pre ++ sp :: mid) ++ post by simp, List.take_left' (by simp; omega)]
              simp
            rw [h2 sp this] at hsp
            cases hsp
          | limit pre post e _ hlen =>
            refine .inl (.inr (.inr ?_))
            rw [Desc.bytes_append] at hcut
            have hp := List.append_cancel_right hcut
            have hl2 := congrArg List.length hp
            have := Desc.length_le_bytes pre
            rw [List.length_take] at hl2
            rw [e, List.take_left' hlen]
            exact Desc.ascii_of_length pre (by omega)
    · exact .inl hs
  · rintro (h | h | ⟨h1, h2⟩)
    · exact C58_partial o (.inl h)
    · exact C58_partial o (.inr h)
    · by_cases hs : o.summary = []
      · by_cases hp : PlainDetails o.details
        · exact C58_partial o (.inr hp)
        · obtain ⟨link, hl, hd⟩ := C58_link o
          rcases Desc.truncate_cases o.details 80 (by decide) with ⟨h, -⟩ | ⟨pre, sp, mid, post, e, g1, g2, g3, -⟩ | ⟨-, -, h3⟩
          · omega
          · refine absurd (.inr (.inl ⟨sp, ?_, g1⟩)) hp
            rw [e, show pre ++ sp :: (mid ++ post) = (pre ++ sp :: mid) ++ post by simp, List.take_left' (by simp; omega)]
            simp
          · rw [← h2, List.take_append_drop] at h3
            have hne : o.details ≠ [] := by
              intro h
              rw [h] at h1
              simp at h1
            refine ⟨utf8Bytes (o.details ++ link), o.details ++ link, ?_, rfl, .details _ link hs hne (.whole (by omega)) hl⟩
            unfold OSV.describe
            simp only [hs, if_true, h3, Option.map_some, Option.some.injEq, hd]
            rw [if_neg (by rw [Desc.bytes_eq_nil]; exact hne), Desc.bytes_append]
      · exact C58_partial o (.inl hs)

/-- Whatever the details: no panic. -/
theorem C58_total (o : OSV) : o.describe ≠ none := by
  unfold OSV.describe
  have : truncate o.details 80 ≠ none := by
    rcases Desc.truncate_cases o.details 80 (by decide) with ⟨_, h⟩ | ⟨_, _, _, _, _, _, _, _, h⟩ | ⟨_, _, h⟩ <;> rw [h] <;> simp
  simp only [ne_eq, Option.map_eq_none_iff]
  split
  · exact this
  · simp

/-- Whatever the details and the limit: what is left has fewer characters than the limit, or is at most the limit in bytes, and
an ellipsis. -/
theorem C58_bounded (s : Str) (limit : Nat) (hl : 0 < limit) :
    ∃ b, truncate s limit = some b ∧ b.length ≤ 4 * limit + 3 := by
  have h3 : (utf8Bytes g!"...").length = 3 := rfl
  rcases Desc.truncate_cases s limit hl with ⟨h1, h⟩ | ⟨pre, _, mid, _, _, _, _, h1, h⟩ | ⟨_, _, h⟩
  · refine ⟨_, h, ?_⟩
    have := Desc.bytes_le s; omega
  · refine ⟨_, h, ?_⟩
    have := Desc.bytes_le pre
    rw [Desc.bytes_append, List.length_append, h3]; omega
  · refine ⟨_, h, ?_⟩
    rw [List.length_append, h3, List.length_take]; omega

/-- Plain details of exactly 80 characters are never shown as they are, although they would fit. -/
theorem C58_exactly_limit (s : Str) (h : s.length = 80) (hp : PlainDetails s) : truncate s 80 ≠ some (utf8Bytes s) := by
  rcases Desc.truncate_cases s 80 (by decide) with ⟨h1, _⟩ | ⟨pre, sp, mid, post, e, h1, h2, h3, h4⟩ | ⟨h1, h2, h3⟩
  · omega
  · have hp : post = [] := by
      have := congrArg List.length e
      simp at this
      exact List.eq_nil_of_length_eq_zero (by omega)
    subst hp
    rw [h4, e]
    simp only [ne_eq, Option.some.injEq, Desc.bytes_append, List.append_cancel_left_eq]
    intro hb
    have hlast : (utf8Bytes g!"...") = [46, 46, 46] := rfl
    rw [hlast] at hb
    have hc : utf8Bytes (sp :: (mid ++ [])) = String.utf8EncodeChar sp ++ utf8Bytes (mid ++ []) := by simp [utf8Bytes]
    rw [hc] at hb
    have hv : [46, 46, 46].toByteArray = (sp :: (mid ++ [])).utf8Encode := by rw [hb, ← hc]; rfl
    have hd : (g!"...").utf8Encode = (sp :: (mid ++ [])).utf8Encode := hv ▸ rfl
    have := congrArg ByteArray.utf8Decode? hd
    rw [List.utf8Decode?_utf8Encode, List.utf8Decode?_utf8Encode] at this
    simp at this
    rw [← this.1] at h1
    revert h1; decide
  · rw [h3]
    simp only [ne_eq, Option.some.injEq]
    intro hb
    rcases hp with hp | ⟨c, hc, hs⟩ | hp
    · omega
    · rw [h2 c hc] at hs; cases hs
    · have e : s.take 80 = s := List.take_of_length_le (by omega)
      rw [e] at hp
      have hl := congrArg List.length hb
      have := Desc.bytes_ascii s hp
      have h3 : (utf8Bytes g!"...").length = 3 := rfl
      rw [List.length_append, h3, List.length_take] at hl
      omega

/-- The last case of `C58_iff`. -/
example : let d := List.replicate 74 'a' ++ List.replicate 3 'é' ++ g!"..."
    d.length = 80 ∧ (utf8Bytes d).drop 80 = utf8Bytes g!"..." ∧ ¬ PlainDetails d := by
  refine ⟨by decide +kernel, by decide +kernel, ?_⟩
  rintro (h | ⟨c, h1, h2⟩ | h)
  · revert h; decide +kernel
  · revert c; decide +kernel
  · revert h; decide +kernel

example : PlainDetails (List.replicate 100 'a') := .inr (.inr (by decide))
example : PlainDetails (g!"é " ++ List.replicate 100 'é') := .inr (.inl ⟨' ', by decide, by decide⟩)

end Osv
