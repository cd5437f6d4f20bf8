import Verif.Lemmas.Pnpm
import Verif.Lemmas.RegexEval
import Verif.Lemmas.RegexFirst
/-! # What is made of any key of a pnpm-lock.yaml -/
namespace Osv.Pnpm
open Osv Str Spec

theorem versionChar_iff (c : Char) : isPnpmVersionChar c = true ↔ isWord c = true ∨ c = '.' ∨ c = '-' := by
  simp [isPnpmVersionChar, or_assoc]

/-- What is behind the name in the expression. -/
def atTail : Re := .seq (.ch '@') (.seq (.cap 2 (.plus (.cls isPnpmVersionChar))) (.alt (.ch '(') .eot))

theorem atTail_none {bol : Bool} {z : Str} {k : Caps}
    (h : ∀ w t, w ≠ [] → (∀ c ∈ w, isPnpmVersionChar c = true) → z = '@' :: (w ++ t) → ¬ (t = [] ∨ ∃ r, t = '(' :: r)) :
    Re.first atTail bol z k some = none := by
  rw [Re.first_none_iff]
  rintro x rest k' rfl hm
  obtain ⟨y, x1, k1, rfl, h1, h2⟩ := Re.matches_seq.1 hm
  obtain ⟨rfl, -⟩ := Re.matches_ch.1 h1
  obtain ⟨w, e, k2, rfl, h3, h4⟩ := Re.matches_seq.1 h2
  obtain ⟨k3, h5, -⟩ := Re.matches_cap.1 h3
  obtain ⟨hw, hc, -⟩ := Re.matches_plus_cls.1 h5
  refine h w (e ++ rest) hw hc (by simp) ?_
  rcases Re.matches_alt.1 h4 with h6 | h6
  · obtain ⟨rfl, -⟩ := Re.matches_ch.1 h6
    exact .inr ⟨rest, rfl⟩
  · obtain ⟨rfl, rfl, -⟩ := Re.matches_eot.1 h6
    exact .inl rfl

theorem atTail_some {bol : Bool} {w t : Str} {k : Caps} (hw : w ≠ []) (hc : ∀ c ∈ w, isPnpmVersionChar c = true)
    (ht : t = [] ∨ ∃ r, t = '(' :: r) : ∃ x y, Re.first atTail bol ('@' :: (w ++ t)) k some = some (x, y, (2, w) :: k) := by
  obtain ⟨c, w, rfl⟩ : ∃ c w', w = c :: w' := by
    cases w with
    | nil => exact absurd rfl hw
    | cons c w => exact ⟨c, w, rfl⟩
  refine ⟨'@' :: (c :: w) ++ t.take 1, t.drop 1, ?_⟩
  unfold atTail Re.plus
  rw [Re.first_seq, Re.first_ch_cons, if_pos rfl, Re.first_seq, Re.first_cap, Re.first_seq]
  dsimp only
  rw [List.cons_append, Re.first_cls_cons, if_pos (hc c (by simp))]
  apply Re.first_starG_run
  · rw [List.all_eq_true]
    exact fun d hd => hc d (by simp [hd])
  · exact stop ht
  · dsimp only
    rw [Re.first_alt]
    rcases ht with rfl | ⟨r, rfl⟩
    · simp
    · rw [Re.first_ch_cons, if_pos rfl]
      simp

theorem last_read {s name version : Str} (h : LastAtVersion s name version) : parseNameAtVersion s = (name, version) := by
  obtain ⟨⟨t, hn, hnl, hv, hvc, rfl, ht⟩, hmax⟩ := h
  have hvc' : ∀ c ∈ version, isPnpmVersionChar c = true := fun c hc => (versionChar_iff c).2 (hvc c hc)
  obtain ⟨c, n, rfl⟩ : ∃ c n, name = c :: n := by
    cases name with
    | nil => exact absurd rfl hn
    | cons c n => exact ⟨c, n, rfl⟩
  have hf : ∃ x y, Re.first rePnpmNameAtVersion true (c :: n ++ '@' :: (version ++ t)) [] some =
      some (x, y, [(2, version), (1, c :: n)]) := by
    obtain ⟨x, y, hxy⟩ := atTail_some (bol := false) (k := [(1, c :: n)]) hv hvc' ht
    refine ⟨c :: n ++ x, y, ?_⟩
    unfold rePnpmNameAtVersion
    simp only [Re.cat]
    rw [Re.first_seq, Re.first_bot, if_pos rfl, Re.first_seq, Re.first_cap]
    unfold Re.plus Re.any
    rw [Re.first_seq]
    dsimp only
    have hc : c ≠ '\n' := fun e => hnl (by simp [e])
    rw [List.cons_append, Re.first_cls_cons, if_pos (by simpa using hc)]
    apply Re.first_starG_some
    · simp only [List.all_eq_true, bne_iff_ne]
      rintro d hd rfl
      exact hnl (by simp [hd])
    · dsimp only
      have := Re.first_map atTail false ('@' :: (version ++ t)) [(1, c :: n)] (fun u => (c :: n ++ u.1, u.2))
      rw [hxy] at this
      exact this
    · intro y' z e hy' hall
      dsimp only
      refine (Re.first_map atTail _ z _ (fun u => ([] ++ ([c] ++ (n ++ y') ++ u.1), u.2))).trans ?_
      rw [atTail_none, Option.map_none]
      rintro w t' hw hwc rfl ht'
      have := hmax (c :: n ++ y') w ⟨t', by simp, ?_, hw, fun c hc => (versionChar_iff c).1 (hwc c hc), ?_, ht'⟩
      · simp only [List.length_append] at this
        cases y' with
        | nil => exact hy' rfl
        | cons a b => simp only [List.length_cons] at this; omega
      · simp only [List.mem_append, not_or]
        refine ⟨hnl, fun hm => ?_⟩
        have := List.all_eq_true.1 hall _ hm
        simp at this
      · rw [e]; simp
  obtain ⟨x, y, hf⟩ := hf
  unfold parseNameAtVersion
  rw [Re.find_anchored _ _ (by intro s; simp [rePnpmNameAtVersion, Re.cat]), hf]
  rfl

theorem none_read {s : Str} (h : ∀ n v, ¬ AtVersion s n v) : parseNameAtVersion s = ([], []) := by
  have hs := Re.find_start (r := rePnpmNameAtVersion) (fun bol k x rest k' h => Re.cat_bot rfl h) s
  unfold parseNameAtVersion
  cases hf : rePnpmNameAtVersion.find s with
  | none => rfl
  | some f =>
    exfalso
    obtain ⟨_, e, hm⟩ := hs.1 f hf
    obtain ⟨u, w, e', hu, hn, hw, hv, hx, he, hk⟩ := matches_nameAt.1 hm
    refine h u w ⟨e' ++ f.post, hu, hn, hw, fun c hc => (versionChar_iff c).1 (hv c hc), by rw [e, hx]; simp, ?_⟩
    rcases he with rfl | ⟨rfl, hp⟩
    · exact .inr ⟨f.post, rfl⟩
    · exact .inl (by rw [hp]; rfl)

theorem last_exists {s n v : Str} (h : AtVersion s n v) : ∃ n v, LastAtVersion s n v := by
  have key : ∀ k n v, AtVersion s n v → s.length - n.length ≤ k → ∃ n v, LastAtVersion s n v := by
    intro k
    induction k with
    | zero =>
      rintro n v h hk
      exfalso
      obtain ⟨t, -, -, -, -, rfl, -⟩ := h
      simp only [List.length_append, List.length_cons] at hk
      omega
    | succ k ih =>
      intro n v h hk
      by_cases hm : ∃ n' v', AtVersion s n' v' ∧ n.length < n'.length
      · obtain ⟨n', v', h', hl⟩ := hm
        exact ih n' v' h' (by omega)
      · exact ⟨n, v, h, fun n' v' h' => Nat.le_of_not_lt fun hl => hm ⟨n', v', h', hl⟩⟩
  exact key _ n v h (Nat.le_refl _)

theorem read_iff {s n v : Str} : (parseNameAtVersion s = (n, v) ∧ v ≠ []) ↔ LastAtVersion s n v := by
  constructor
  · rintro ⟨h, hv⟩
    by_cases he : ∃ n v, AtVersion s n v
    · obtain ⟨_, _, he⟩ := he
      obtain ⟨n', v', h'⟩ := last_exists he
      rw [last_read h'] at h
      cases h
      exact h'
    · rw [none_read fun n v h => he ⟨n, v, h⟩] at h
      cases h
      exact absurd rfl hv
  · intro h
    refine ⟨last_read h, ?_⟩
    obtain ⟨⟨t, -, -, hv, -⟩, -⟩ := h
    exact hv

theorem segments_iff {s : Str} {ps : List Str} : Segments s ps ↔ splitChar '/' s = ps := by
  constructor
  · rintro ⟨h1, h2, rfl⟩
    exact splitChar_join '/' ps h1 h2
  · rintro rfl
    exact ⟨splitChar_ne_nil _ _, not_mem_splitChar _ _, (join_splitChar _ _).symm⟩

/-- What is done behind the name. -/
def behind (full : Str) (rest : List Str) : Str × Str :=
  let nv := if rest.headD [] = [] then parseNameAtVersion full else (full, rest.headD [])
  if nv.2 = [] || !startsWithNumber nv.2 then ([], []) else (nv.1, (cut nv.2 g!"_").1)

theorem behind_eq (full : Str) (rest : List Str) :
    (let nv := if rest.headD [] = [] then parseNameAtVersion full else (full, rest.headD [])
     if nv.2 = [] || !startsWithNumber nv.2 then some ([], []) else some (nv.1, (cut nv.2 g!"_").1)) = some (behind full rest) := by
  unfold behind
  dsimp only
  exact (apply_ite some _ _ _).symm

theorem extract_named (path : Str) (hf : ¬ IsFile path) (r : Str × Str) : extractPnpm false path = some (some r) ↔
    ∃ full rest, PnpmNamed path full rest ∧ r = behind full rest := by
  unfold extractPnpm PnpmNamed
  rw [if_neg (by rw [isFile_iff]; exact hf), if_neg (by simp)]
  simp only [segments_iff]
  match hs : splitChar '/' path with
  | [] => simp
  | [_] => simp
  | h :: p :: parts =>
    dsimp only
    by_cases hp : hasPrefix p g!"@" = true
    · obtain ⟨scope, rfl⟩ := (hasPrefix_iff _ _).1 hp
      rw [if_pos hp]
      cases parts with
      | nil =>
        simp only [Option.map_none, reduceCtorEq, false_iff]
        rintro ⟨full, rest, ⟨host, ⟨e, h2⟩ | ⟨sc, n, e, rfl⟩⟩, -⟩
        · simp only [List.cons.injEq] at e
          exact h2 scope e.2.1.symm
        · simp at e
      | cons q parts =>
        rw [Option.map_some, Option.some.injEq, behind_eq, Option.some.injEq]
        have hq : g!"@" ++ scope ++ g!"/" ++ q = '@' :: scope ++ '/' :: q := by simp
        rw [hq]
        constructor
        · rintro rfl
          exact ⟨_, parts, ⟨h, .inr ⟨scope, q, rfl, rfl⟩⟩, rfl⟩
        · rintro ⟨full, rest, ⟨host, ⟨e, h2⟩ | ⟨sc, n, e, rfl⟩⟩, rfl⟩
          · simp only [List.cons.injEq] at e
            exact absurd e.2.1.symm (h2 scope)
          · simp only [List.cons.injEq, List.cons_append, List.nil_append, true_and] at e
            obtain ⟨-, rfl, rfl, rfl⟩ := e
            rfl
    · rw [if_neg hp]
      have hp' : ∀ r, p ≠ '@' :: r := fun r e => hp ((hasPrefix_iff _ _).2 ⟨r, e⟩)
      rw [Option.map_some, Option.some.injEq, behind_eq, Option.some.injEq]
      constructor
      · rintro rfl
        exact ⟨p, parts, ⟨h, .inl ⟨rfl, hp'⟩⟩, rfl⟩
      · rintro ⟨full, rest, ⟨host, ⟨e, h2⟩ | ⟨sc, n, e, rfl⟩⟩, rfl⟩
        · simp only [List.cons.injEq] at e
          obtain ⟨-, rfl, rfl⟩ := e
          rfl
        · simp only [List.cons.injEq] at e
          exact absurd e.2.1 (hp' sc)

theorem named_unique {path full full' : Str} {rest rest' : List Str} (h : PnpmNamed path full rest) (h' : PnpmNamed path full' rest') :
    full = full' ∧ rest = rest' := by
  unfold PnpmNamed at h h'
  simp only [segments_iff] at h h'
  obtain ⟨host, ⟨e, h2⟩ | ⟨sc, n, e, rfl⟩⟩ := h <;> obtain ⟨host', ⟨e', h2'⟩ | ⟨sc', n', e', rfl⟩⟩ := h'
  · rw [e] at e'
    simp only [List.cons.injEq] at e'
    exact ⟨e'.2.1, e'.2.2⟩
  · rw [e] at e'
    simp only [List.cons.injEq] at e'
    exact absurd e'.2.1 (h2 sc')
  · rw [e] at e'
    simp only [List.cons.injEq] at e'
    exact absurd e'.2.1.symm (h2' sc)
  · rw [e] at e'
    simp only [List.cons.injEq, true_and] at e'
    obtain ⟨-, rfl, rfl, rfl⟩ := e'
    exact ⟨rfl, rfl⟩

/-- What is said, given the name. -/
theorem says_iff {path full : Str} {rest : List Str} (h : PnpmNamed path full rest) (n v : Str) : PnpmPathSays path n v ↔
    ∃ v0, (if rest.headD [] = [] then parseNameAtVersion full else (full, rest.headD [])) = (n, v0) ∧ v0 ≠ [] ∧
      startsWithNumber v0 = true ∧ (cut v0 g!"_").1 = v := by
  unfold PnpmPathSays
  simp only [startsWithNumber_iff, cut_char_fst_iff]
  constructor
  · rintro ⟨full', rest', v0, h', hv, hd, hb⟩
    obtain ⟨rfl, rfl⟩ := named_unique h h'
    have hne : v0 ≠ [] := by
      obtain ⟨c, r, rfl, -⟩ := hd
      simp
    refine ⟨v0, ?_, hne, hd, hb⟩
    rcases hv with ⟨hr, rfl, rfl⟩ | ⟨hr, hl⟩
    · rw [if_neg hr]
    · rw [if_pos hr]
      exact (read_iff.2 hl).1
  · rintro ⟨v0, hv, hne, hd, hb⟩
    refine ⟨full, rest, v0, h, ?_, hd, hb⟩
    by_cases hr : rest.headD [] = []
    · rw [if_pos hr] at hv
      exact .inr ⟨hr, read_iff.1 ⟨hv, hne⟩⟩
    · rw [if_neg hr] at hv
      cases hv
      exact .inl ⟨hr, rfl, rfl⟩

theorem path_rule (path : Str) (hf : ¬ IsFile path) (n v : Str) :
    extractPnpm false path = some (some (n, v)) ↔ PnpmPathRule path n v := by
  rw [extract_named path hf]
  unfold PnpmPathRule
  constructor
  · rintro ⟨full, rest, h, e⟩
    refine ⟨⟨full, rest, h⟩, ?_⟩
    unfold behind at e
    simp only [says_iff h]
    dsimp only at e
    generalize (if rest.headD [] = [] then parseNameAtVersion full else (full, rest.headD [])) = nv at e
    obtain ⟨n0, v0⟩ := nv
    split at e
    · rename_i hc
      cases e
      refine .inr ⟨?_, rfl, rfl⟩
      rintro n v ⟨v1, e1, h1, h2, -⟩
      cases e1
      simp [h1, h2] at hc
    · rename_i hc
      cases e
      simp only [Bool.or_eq_true, not_or, decide_eq_true_eq, Bool.not_eq_true', Bool.not_eq_false] at hc
      exact .inl ⟨v0, rfl, hc.1, hc.2, rfl⟩
  · rintro ⟨⟨full, rest, h⟩, hs⟩
    refine ⟨full, rest, h, ?_⟩
    simp only [says_iff h] at hs
    unfold behind
    dsimp only
    generalize (if rest.headD [] = [] then parseNameAtVersion full else (full, rest.headD [])) = nv at hs
    obtain ⟨n0, v0⟩ := nv
    rcases hs with ⟨v1, e1, h1, h2, rfl⟩ | ⟨hno, rfl, rfl⟩
    · cases e1
      simp [h1, h2]
    · rw [if_pos]
      apply Classical.byContradiction
      intro hc
      simp only [Bool.or_eq_true, not_or, decide_eq_true_eq, Bool.not_eq_true', Bool.not_eq_false] at hc
      exact hno n0 _ ⟨v0, rfl, hc.1, hc.2, rfl⟩

theorem unquoted_iff {s t : Str} : trimFunc (· == '\'') s = t ↔ PnpmUnquoted s t := by
  constructor
  · rintro rfl
    unfold trimFunc
    obtain ⟨a, ea, ha, hh⟩ := dropWhile_split (· == '\'') s
    obtain ⟨b, eb, hb, hl⟩ := dropRight_split (· == '\'') (s.dropWhile (· == '\''))
    refine ⟨a, b, by rw [List.append_assoc, ← eb, ← ea], by simpa using ha, by simpa using hb, ?_, by simpa using hl⟩
    intro c hc
    have : (c == '\'') = false := by
      apply hh
      rw [eb]
      cases h : dropRight (· == '\'') (List.dropWhile (· == '\'') s) with
      | nil => rw [h] at hc; cases hc
      | cons d t => rw [h] at hc; simpa using hc
    simpa using this
  · rintro ⟨a, b, rfl, ha, hb, hh, hl⟩
    unfold trimFunc
    rw [List.append_assoc, dropWhile_all_append _ _ _ (List.all_eq_true.2 (by simpa using ha))]
    cases t with
    | nil =>
      have : (b : Str).dropWhile (· == '\'') = [] := by
        have := dropWhile_all_append (· == '\'') b [] (List.all_eq_true.2 (by simpa using hb))
        simpa using this
      rw [List.nil_append, this]; rfl
    | cons d t =>
      rw [dropWhile_self _ _ (by simpa using hh), dropRight_append _ _ _ (List.all_eq_true.2 (by simpa using hb)),
        dropRight_all _ _ (by simpa using hl)]

theorem around_iff {t n v : Str} : cut t g!"@" = (n, v) ↔ AroundAt t n v := by
  unfold AroundAt
  constructor
  · intro h
    have h1 := cut_char_fst_iff (c := '@') (s := t) (p := n) |>.1 (by rw [h])
    obtain ⟨hn, rfl | ⟨r, rfl⟩⟩ := h1
    · rw [cut_char_none _ _ hn] at h
      cases h
      exact ⟨hn, .inl ⟨rfl, rfl⟩⟩
    · rw [cut_char _ _ _ hn] at h
      cases h
      exact ⟨hn, .inr rfl⟩
  · rintro ⟨hn, ⟨rfl, rfl⟩ | rfl⟩
    · exact cut_char_none _ _ hn
    · exact cut_char _ _ _ hn

theorem key_rule (key : Str) (hf : ¬ IsFile key) (n v : Str) :
    extractPnpm true key = some (some (n, v)) ↔ PnpmKeyRule key n v := by
  unfold extractPnpm PnpmKeyRule
  rw [if_neg (by rw [isFile_iff]; exact hf), if_pos rfl]
  simp only [← unquoted_iff, exists_eq_left', ← around_iff]
  generalize trimFunc (· == '\'') key = t
  unfold cutPrefix
  by_cases hp : hasPrefix t g!"@" = true
  · obtain ⟨r, rfl⟩ := (hasPrefix_iff _ _).1 hp
    rw [if_pos hp]
    simp only [List.cons_append, List.nil_append, List.length_cons, List.length_nil, List.drop_succ_cons, List.drop_zero, if_true,
      Option.some.injEq, Prod.mk.injEq, List.cons.injEq, true_and]
    constructor
    · rintro ⟨rfl, rfl⟩
      exact .inl ⟨r, _, rfl, rfl, rfl⟩
    · rintro (⟨r', n', rfl, h, rfl⟩ | ⟨h, -⟩)
      · rw [h]; exact ⟨rfl, rfl⟩
      · exact absurd rfl (h r)
  · rw [if_neg hp]
    have hp' : ∀ r, t ≠ '@' :: r := fun r e => hp ((hasPrefix_iff _ _).2 ⟨r, e⟩)
    simp [hp', Prod.ext_iff]

/-- Any key. -/
theorem rule (nine : Bool) (key n v : Str) : extractPnpm nine key = some (some (n, v)) ↔ PnpmRule nine key n v := by
  unfold PnpmRule
  by_cases hf : IsFile key
  · have : extractPnpm nine key = some (some ([], [])) := by unfold extractPnpm; rw [if_pos ((isFile_iff _).2 hf)]
    rw [this]
    simp [hf, eq_comm]
  · cases nine with
    | true => simp [hf, key_rule key hf]
    | false => simp [hf, path_rule key hf]

end Osv.Pnpm
