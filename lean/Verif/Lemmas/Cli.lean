import Verif.Lemmas.Str
import Verif.Model.Cli
import Verif.Spec.Cli
/-! # Lemmas about the command line -/
namespace Osv.Cli
open Str Spec

/-- The effect of an option. -/
def apply (atoi : Str → Option Int) (f : Flags) (o : Opt) : Flags :=
  match boolFlags.lookup o.name with
  | some set => set ((parseBool (o.value.getD g!"true")).getD false) f
  | none => match (valueFlags atoi).lookup o.name with
    | some set => (set (o.value.getD []) f).getD f
    | none => f

theorem truth_iff (b : Bool) (v : Str) : parseBool v = some b ↔ TruthWord b v := by
  unfold parseBool TruthWord
  cases b
  · constructor
    · intro h
      split at h
      · cases h
      · split at h
        · rename_i h2; simpa using h2
        · cases h
    · intro h
      have h : v ∈ [g!"0", g!"f", g!"F", g!"FALSE", g!"false", g!"False"] := h
      simp only [List.mem_cons, List.not_mem_nil, or_false] at h
      rcases h with rfl | rfl | rfl | rfl | rfl | rfl <;> decide
  · constructor
    · intro h
      split at h
      · rename_i h2; simpa using h2
      · split at h <;> cases h
    · intro h
      rw [if_pos]
      simpa using h

theorem switched_iff (o : Opt) (b : Bool) : parseBool (o.value.getD g!"true") = some b ↔ Switched o b := by
  unfold Switched
  cases h : o.value with
  | none =>
    have : parseBool g!"true" = some true := by decide
    simp [this, eq_comm]
  | some v => simp [truth_iff]

theorem bool_lookup (name : Str) : (∃ set, boolFlags.lookup name = some set) ↔ name ∈ switches := by
  constructor
  · rintro ⟨set, h⟩
    unfold boolFlags at h
    simp only [List.lookup] at h
    unfold switches
    repeat' (split at h; · rename_i hh; have := eq_of_beq hh; subst this; decide)
    cases h
  · intro h
    simp only [switches, List.mem_cons, List.not_mem_nil, or_false] at h
    rcases h with rfl | rfl | rfl | rfl | rfl | rfl | rfl | rfl | rfl | rfl | rfl <;> exact ⟨_, rfl⟩

theorem value_lookup (atoi : Str → Option Int) (name : Str) : (∃ set, (valueFlags atoi).lookup name = some set) ↔ name ∈ settings := by
  constructor
  · rintro ⟨set, h⟩
    unfold valueFlags at h
    simp only [List.lookup] at h
    unfold settings
    repeat' (split at h; · rename_i hh; have := eq_of_beq hh; subst this; decide)
    cases h
  · intro h
    simp only [settings, List.mem_cons, List.not_mem_nil, or_false] at h
    rcases h with rfl | rfl | rfl | rfl <;> exact ⟨_, rfl⟩

theorem name_plain {name : Str} (h : name ∈ switches ∨ name ∈ settings) : '=' ∉ name ∧ ∃ c r, name = c :: r ∧ c ≠ '-' ∧ c ≠ '=' := by
  simp only [switches, settings, List.mem_cons, List.not_mem_nil, or_false] at h
  rcases h with (h | h | h | h | h | h | h | h | h | h | h) | h | h | h | h <;> subst h <;>
    exact ⟨by decide, _, _, rfl, by decide, by decide⟩

theorem settings_not_switches {name : Str} (h : name ∈ settings) : boolFlags.lookup name = none := by
  simp only [settings, List.mem_cons, List.not_mem_nil, or_false] at h
  rcases h with rfl | rfl | rfl | rfl <;> rfl

theorem splitEquals_cons (c : Char) (cs : Str) : splitEquals (c :: cs) = match cut? g!"=" cs with
    | none => (c :: cs, none)
    | some (a, b) => (c :: a, some b) := rfl

theorem splitEquals_plain {name : Str} (h : '=' ∉ name) : splitEquals name = (name, none) := by
  cases name with
  | nil => rfl
  | cons c cs =>
    rw [splitEquals_cons, cut?_char_none '=' cs (fun hh => h (List.mem_cons_of_mem _ hh))]

theorem splitEquals_joined {name : Str} (v : Str) (h : '=' ∉ name) (hn : name ≠ []) :
    splitEquals (name ++ g!"=" ++ v) = (name, some v) := by
  cases name with
  | nil => exact absurd rfl hn
  | cons c cs =>
    rw [List.append_assoc, List.cons_append, splitEquals_cons, show cs ++ (g!"=" ++ v) = cs ++ '=' :: v from rfl, cut?_char '=' cs v (fun hh => h (List.mem_cons_of_mem _ hh))]

/-- The text of an argument is a dash or two and what follows. -/
def body (s : Str) : Str := if hasPrefix s g!"--" then s.drop 2 else s.drop 1

theorem body_dash {dash : Str} (hd : dash = g!"-" ∨ dash = g!"--") {c : Char} {r : Str} (hc : c ≠ '-') :
    body (dash ++ c :: r) = c :: r ∧ ¬ ((dash ++ c :: r).length < 2 || !hasPrefix (dash ++ c :: r) g!"-") = true ∧
      dash ++ c :: r ≠ g!"--" := by
  rcases hd with rfl | rfl
  · simp [body, hasPrefix, List.isPrefixOf, hc, Ne.symm hc]
  · simp [body, hasPrefix, List.isPrefixOf]

/-- What happens to an argument that has the form of an option. -/
def readOption (atoi : Str → Option Int) (f : Flags) (nv : Str × Option Str) (rest : List Str) : Except CliErr Flags :=
  match boolFlags.lookup nv.1 with
  | some set => match parseBool (nv.2.getD g!"true") with
    | none => .error .bad
    | some b => parseArgs atoi (set b f) rest
  | none => match (valueFlags atoi).lookup nv.1 with
    | none => .error (if nv.1 = g!"help" || nv.1 = g!"h" then .help else .bad)
    | some set => match nv.2 with
      | some v => match set v f with
        | none => .error .bad
        | some f => parseArgs atoi f rest
      | none => match rest with
        | [] => .error .bad
        | v :: rest => match set v f with
          | none => .error .bad
          | some f => parseArgs atoi f rest

theorem parseArgs_cons (atoi : Str → Option Int) (f : Flags) (s : Str) (rest : List Str) :
    parseArgs atoi f (s :: rest) =
      if s.length < 2 || !hasPrefix s g!"-" then .ok { f with args := s :: rest }
      else if s = g!"--" then .ok { f with args := rest }
      else if body s = [] || hasPrefix (body s) g!"-" || hasPrefix (body s) g!"=" then .error .bad
      else readOption atoi f (splitEquals (body s)) rest := by
  rw [parseArgs.eq_def]
  dsimp only
  unfold readOption body
  rfl

theorem parseArgs_option (atoi : Str → Option Int) (f : Flags) {dash : Str} (hd : dash = g!"-" ∨ dash = g!"--") {c : Char} {r : Str}
    (hc : c ≠ '-') (hc' : c ≠ '=') (rest : List Str) :
    parseArgs atoi f ((dash ++ c :: r) :: rest) = readOption atoi f (splitEquals (c :: r)) rest := by
  obtain ⟨h1, h2, h3⟩ := body_dash hd (r := r) hc
  rw [parseArgs_cons, if_neg h2, if_neg h3, h1, if_neg]
  simp [hasPrefix, List.isPrefixOf, Ne.symm hc, Ne.symm hc']

theorem set_value (atoi : Str → Option Int) {name v : Str} {set : Str → Flags → Option Flags} (hs : (valueFlags atoi).lookup name = some set)
    (hv : name = g!"batch-size" → ∃ n, atoi v = some n) (f : Flags) : ∃ f', set v f = some f' := by
  unfold valueFlags at hs
  simp only [List.lookup] at hs
  split at hs
  · cases hs; exact ⟨_, rfl⟩
  · split at hs
    · cases hs; exact ⟨_, rfl⟩
    · split at hs
      · rename_i h
        cases hs
        obtain ⟨n, hn⟩ := hv (eq_of_beq h)
        exact ⟨_, by show (atoi v).map _ = _; rw [hn]; rfl⟩
      · split at hs
        · cases hs; exact ⟨_, rfl⟩
        · cases hs

/-- An accepted option has its effect. -/
theorem parse_opt (atoi : Str → Option Int) (f : Flags) (o : Opt) (h : o.Valid atoi) (rest : List Str) :
    parseArgs atoi f (o.words ++ rest) = parseArgs atoi (apply atoi f o) rest := by
  obtain ⟨dash, name, value, apart⟩ := o
  obtain ⟨hd, h⟩ := h
  dsimp only at hd
  rcases h with ⟨hn, ha, b, hb⟩ | ⟨hn, v, hv, hbs⟩
  · dsimp only at hn ha
    subst ha
    obtain ⟨set, hset⟩ := (bool_lookup name).2 hn
    obtain ⟨he, c, r, rfl, hc, hc'⟩ := name_plain (.inl hn)
    rw [← switched_iff] at hb
    cases value with
    | none =>
      show parseArgs atoi f ((dash ++ c :: r) :: rest) = _
      rw [parseArgs_option atoi f hd hc hc', splitEquals_plain he]
      simp only [readOption, apply, hset, hb, Option.getD_some]
    | some v =>
      show parseArgs atoi f ((dash ++ c :: r ++ g!"=" ++ v) :: rest) = _
      rw [show dash ++ c :: r ++ g!"=" ++ v = dash ++ c :: (r ++ g!"=" ++ v) by simp, parseArgs_option atoi f hd hc hc',
        show c :: (r ++ g!"=" ++ v) = (c :: r) ++ g!"=" ++ v by simp, splitEquals_joined v he (by simp)]
      have hb : parseBool v = some b := hb
      simp only [readOption, apply, hset, Option.getD_some, hb]
  · dsimp only at hn hv hbs
    subst hv
    have hset0 := settings_not_switches hn
    obtain ⟨set, hset⟩ := (value_lookup atoi name).2 hn
    obtain ⟨f', hf'⟩ := set_value atoi hset hbs f
    obtain ⟨he, c, r, rfl, hc, hc'⟩ := name_plain (.inr hn)
    cases apart with
    | true =>
      show parseArgs atoi f ((dash ++ c :: r) :: v :: rest) = _
      rw [parseArgs_option atoi f hd hc hc', splitEquals_plain he]
      simp only [readOption, apply, hset0, hset, hf', Option.getD_some]
    | false =>
      show parseArgs atoi f ((dash ++ c :: r ++ g!"=" ++ v) :: rest) = _
      rw [show dash ++ c :: r ++ g!"=" ++ v = dash ++ c :: (r ++ g!"=" ++ v) by simp, parseArgs_option atoi f hd hc hc',
        show c :: (r ++ g!"=" ++ v) = (c :: r) ++ g!"=" ++ v by simp, splitEquals_joined v he (by simp)]
      simp only [readOption, apply, hset0, hset, hf', Option.getD_some]

theorem parse_opts (atoi : Str → Option Int) (opts : List Opt) (h : ∀ o ∈ opts, o.Valid atoi) (f : Flags) (rest : List Str) :
    parseArgs atoi f (opts.flatMap Opt.words ++ rest) = parseArgs atoi (opts.foldl (apply atoi) f) rest := by
  induction opts generalizing f with
  | nil => rfl
  | cons o opts ih =>
    rw [List.flatMap_cons, List.append_assoc, parse_opt atoi f o (h o (by simp)), ih (fun x hx => h x (by simp [hx]))]
    rfl

theorem optionLike_iff (s : Str) : (s.length < 2 || !hasPrefix s g!"-") = true ↔ ¬ OptionLike s := by
  unfold OptionLike
  match s with
  | [] => simp
  | [c] => simp
  | c :: d :: r =>
    simp only [List.length_cons, hasPrefix, List.isPrefixOf]
    by_cases h : c = '-'
    · simp [h]
    · simp [h, Ne.symm h]

theorem parse_tail (atoi : Str → Option Int) (f : Flags) (paths : List Str) (h : ∀ p ps, paths = p :: ps → ¬ OptionLike p) :
    parseArgs atoi f paths = .ok { f with args := paths } := by
  cases paths with
  | nil => rfl
  | cons p ps => rw [parseArgs_cons, if_pos ((optionLike_iff p).2 (h p ps rfl))]

theorem parse_dashes (atoi : Str → Option Int) (f : Flags) (paths : List Str) :
    parseArgs atoi f (g!"--" :: paths) = .ok { f with args := paths } := by
  rw [parseArgs_cons, if_neg (by decide), if_pos rfl]

/-- The arguments of a run can be split. -/
theorem parse_split (atoi : Str → Option Int) (args : List Str) (f f' : Flags) (h : parseArgs atoi f args = .ok f') :
    ∃ opts paths, (∀ o ∈ opts, o.Valid atoi) ∧ Splits args opts paths := by
  induction hn : args.length using Nat.strongRecOn generalizing args f with
  | ind n ih =>
    cases args with
    | nil => exact ⟨[], [], by simp, .inl ⟨rfl, by simp⟩⟩
    | cons s rest =>
      rw [parseArgs_cons] at h
      split at h
      · rename_i h1
        exact ⟨[], s :: rest, by simp, .inl ⟨rfl, by rintro p ps ⟨⟩; exact (optionLike_iff s).1 h1⟩⟩
      · rename_i h1
        split at h
        · rename_i h2
          subst h2
          exact ⟨[], rest, by simp, .inr rfl⟩
        · rename_i h2
          split at h
          · cases h
          · rename_i h3
            have hs : ∃ dash, (dash = g!"-" ∨ dash = g!"--") ∧ s = dash ++ body s := by
              have : OptionLike s := by
                rw [optionLike_iff, Classical.not_not] at h1
                exact h1
              obtain ⟨c, r, rfl⟩ := this
              by_cases hc : c = '-'
              · subst hc
                exact ⟨g!"--", .inr rfl, by simp [body, hasPrefix, List.isPrefixOf]⟩
              · exact ⟨g!"-", .inl rfl, by simp [body, hasPrefix, List.isPrefixOf, Ne.symm hc]⟩
            obtain ⟨dash, hd, hs⟩ := hs
            generalize body s = b at hs h h3
            have hb : ∃ c r, b = c :: r := by
              cases b with
              | nil => simp at h3
              | cons c r => exact ⟨c, r, rfl⟩
            obtain ⟨c, r, rfl⟩ := hb
            have hnv : (splitEquals (c :: r) = (c :: r, none)) ∨
                ∃ n v, splitEquals (c :: r) = (n, some v) ∧ c :: r = n ++ g!"=" ++ v := by
              rw [splitEquals_cons]
              cases hcut : cut? g!"=" r with
              | none => exact .inl rfl
              | some ab =>
                obtain ⟨a, b⟩ := ab
                exact .inr ⟨c :: a, b, rfl, by rw [cut?_some hcut]; simp⟩
            -- one option and the remaining arguments
            have key : ∀ (o : Opt) (more : List Str) (g : Flags), o.Valid atoi → s :: rest = o.words ++ more → o.words ≠ [] →
                parseArgs atoi g more = .ok f' →
                ∃ opts paths, (∀ o ∈ opts, o.Valid atoi) ∧ Splits (s :: rest) opts paths := by
              intro o more g ho he hne hg
              have hlt : more.length < n := by
                rw [← hn, he, List.length_append]
                have := List.length_pos_iff.2 hne
                omega
              obtain ⟨opts, paths, h1, h2⟩ := ih more.length hlt more g hg rfl
              refine ⟨o :: opts, paths, by simpa [ho] using h1, ?_⟩
              unfold Splits at h2 ⊢
              rw [List.flatMap_cons, List.append_assoc, List.append_assoc, he]
              rcases h2 with ⟨h2, h3⟩ | h2
              · exact .inl ⟨by rw [h2], h3⟩
              · exact .inr (by rw [h2])
            unfold readOption at h
            rcases hnv with hnv | ⟨nm, v, hnv, hcr⟩
            · rw [hnv] at h
              dsimp only at h
              cases hbl : boolFlags.lookup (c :: r) with
              | some set =>
                rw [hbl] at h
                dsimp only at h
                cases hpb : parseBool (none.getD g!"true") with
                | none => rw [hpb] at h; cases h
                | some b =>
                  rw [hpb] at h
                  exact key ⟨dash, c :: r, none, false⟩ rest (set b f)
                    ⟨hd, .inl ⟨(bool_lookup _).1 ⟨set, hbl⟩, rfl, b, (switched_iff _ b).1 hpb⟩⟩ (by rw [hs]; rfl) (by simp [Opt.words]) h
              | none =>
                rw [hbl] at h
                dsimp only at h
                cases hvl : (valueFlags atoi).lookup (c :: r) with
                | none => rw [hvl] at h; cases h
                | some set =>
                  rw [hvl] at h
                  dsimp only at h
                  cases rest with
                  | nil => cases h
                  | cons v rest =>
                    dsimp only at h
                    cases hset : set v f with
                    | none => rw [hset] at h; cases h
                    | some g =>
                      rw [hset] at h
                      refine key ⟨dash, c :: r, some v, true⟩ rest g ⟨hd, .inr ⟨(value_lookup atoi _).1 ⟨set, hvl⟩, v, rfl, ?_⟩⟩
                        (by rw [hs]; rfl) (by simp [Opt.words]) h
                      intro hbs
                      dsimp only at hbs
                      rw [hbs] at hvl
                      cases hvl
                      cases ha : atoi v with
                      | none => exact absurd hset (by show (atoi v).map _ ≠ _; rw [ha]; simp)
                      | some n => exact ⟨n, rfl⟩
            · rw [hnv] at h
              dsimp only at h
              cases hbl : boolFlags.lookup nm with
              | some set =>
                rw [hbl] at h
                dsimp only at h
                cases hpb : parseBool ((some v).getD g!"true") with
                | none => rw [hpb] at h; cases h
                | some b =>
                  rw [hpb] at h
                  exact key ⟨dash, nm, some v, false⟩ rest (set b f)
                    ⟨hd, .inl ⟨(bool_lookup _).1 ⟨set, hbl⟩, rfl, b, (switched_iff _ b).1 hpb⟩⟩
                    (by rw [hs, hcr]; simp [Opt.words]) (by simp [Opt.words]) h
              | none =>
                rw [hbl] at h
                dsimp only at h
                cases hvl : (valueFlags atoi).lookup nm with
                | none => rw [hvl] at h; cases h
                | some set =>
                  rw [hvl] at h
                  dsimp only at h
                  cases hset : set v f with
                  | none => rw [hset] at h; cases h
                  | some g =>
                    rw [hset] at h
                    refine key ⟨dash, nm, some v, false⟩ rest g ⟨hd, .inr ⟨(value_lookup atoi _).1 ⟨set, hvl⟩, v, rfl, ?_⟩⟩
                      (by rw [hs, hcr]; simp [Opt.words]) (by simp [Opt.words]) h
                    intro hbs
                    dsimp only at hbs
                    rw [hbs] at hvl
                    cases hvl
                    cases ha : atoi v with
                    | none => exact absurd hset (by show (atoi v).map _ ≠ _; rw [ha]; simp)
                    | some n => exact ⟨n, rfl⟩

theorem last_fold {α : Type} (atoi : Str → Option Int) (g : Flags → α) (name : Str) (R : Opt → α → Prop)
    (hsame : ∀ o f, o.name ≠ name → g (apply atoi f o) = g f)
    (hset : ∀ o f, o.Valid atoi → o.name = name → R o (g (apply atoi f o))) (opts : List Opt) (h : ∀ o ∈ opts, o.Valid atoi) (f : Flags) :
    Last opts name R (g f) (g (opts.foldl (apply atoi) f)) := by
  induction opts generalizing f with
  | nil => exact .inr ⟨by simp, rfl⟩
  | cons o opts ih =>
    rcases ih (fun x hx => h x (by simp [hx])) (apply atoi f o) with ⟨pre, o', post, he, hn, hr, hp⟩ | ⟨h1, h2⟩
    · exact .inl ⟨o :: pre, o', post, by rw [he]; rfl, hn, hr, hp⟩
    · by_cases hn : o.name = name
      · exact .inl ⟨[], o, opts, rfl, hn, by rw [List.foldl_cons, h2]; exact hset o f (h o (by simp)) hn, h1⟩
      · exact .inr ⟨by simpa [hn] using h1, by rw [List.foldl_cons, h2, hsame o f hn]⟩

theorem last_unique {α : Type} {opts : List Opt} {name : Str} {R : Opt → α → Prop} {d a b : α}
    (hR : ∀ o x y, R o x → R o y → x = y) (ha : Last opts name R d a) (hb : Last opts name R d b) : a = b := by
  rcases ha with ⟨pre, o, post, he, hn, hr, hp⟩ | ⟨h1, h2⟩
  · rcases hb with ⟨pre', o', post', he', hn', hr', hp'⟩ | ⟨h1, -⟩
    · have : o = o' := by
        rw [he] at he'
        clear he
        induction pre generalizing pre' with
        | nil =>
          cases pre' with
          | nil => exact (List.cons.inj he').1
          | cons q pre' =>
            exfalso
            have := (List.cons.inj he').2
            exact hp o' (by rw [this]; simp) hn'
        | cons q pre ih =>
          cases pre' with
          | nil =>
            exfalso
            have := (List.cons.inj he').2
            exact hp' o (by rw [← this]; simp) hn
          | cons q' pre' => exact ih pre' (List.cons.inj he').2
      subst this
      exact hR _ _ _ hr hr'
    · exact absurd hn (h1 o (by rw [he]; simp))
  · rcases hb with ⟨pre', o', post', he', hn', hr', hp'⟩ | ⟨-, h2'⟩
    · exact absurd hn' (h1 o' (by rw [he']; simp))
    · rw [h2, h2']

theorem lookup_mem {β : Type} {l : List (Str × β)} {k : Str} {v : β} (h : l.lookup k = some v) : (k, v) ∈ l := by
  induction l with
  | nil => cases h
  | cons x l ih =>
    obtain ⟨a, b⟩ := x
    rw [List.lookup_cons] at h
    split at h
    · rename_i hk
      rw [eq_of_beq hk]
      cases h
      exact List.mem_cons_self
    · exact List.mem_cons_of_mem _ (ih h)

/-- What an option does. -/
inductive Does (atoi : Str → Option Int) (f : Flags) (o : Opt) : Flags → Prop where
  | switch (set : Bool → Flags → Flags) (b : Bool) (h : (o.name, set) ∈ boolFlags) (hb : o.Valid atoi → Switched o b) : Does atoi f o (set b f)
  | setting (set : Str → Flags → Option Flags) (h : (o.name, set) ∈ valueFlags atoi) : Does atoi f o ((set (o.value.getD []) f).getD f)
  | nothing (h : o.name ∉ switches) (h' : o.name ∉ settings) : Does atoi f o f

theorem does (atoi : Str → Option Int) (f : Flags) (o : Opt) : Does atoi f o (apply atoi f o) := by
  unfold apply
  cases hb : boolFlags.lookup o.name with
  | some set =>
    refine .switch set _ (lookup_mem hb) fun hv => ?_
    have hs := (bool_lookup o.name).1 ⟨set, hb⟩
    rcases hv.2 with ⟨-, -, b, h⟩ | ⟨h, -⟩
    · rw [(switched_iff o b).2 h]; exact h
    · rw [settings_not_switches h] at hb; cases hb
  | none =>
    cases hv : (valueFlags atoi).lookup o.name with
    | some set => exact .setting set (lookup_mem hv)
    | none =>
      refine .nothing (fun h => ?_) fun h => ?_
      · obtain ⟨_, h⟩ := (bool_lookup _).2 h; rw [hb] at h; cases h
      · obtain ⟨_, h⟩ := (value_lookup atoi _).2 h; rw [hv] at h; cases h

theorem same_offline (atoi : Str → Option Int) (o : Opt) (f : Flags) (hn : o.name ≠ g!"offline") :
    (apply atoi f o).offline = f.offline := by
  have hdoes := does atoi f o
  generalize apply atoi f o = f' at hdoes ⊢
  cases hdoes with
  | switch set b h hb =>
    simp only [boolFlags, List.mem_cons, Prod.mk.injEq, List.not_mem_nil, or_false] at h
    rcases h with ⟨h, rfl⟩ | ⟨h, rfl⟩ | ⟨h, rfl⟩ | ⟨h, rfl⟩ | ⟨h, rfl⟩ | ⟨h, rfl⟩ | ⟨h, rfl⟩ | ⟨h, rfl⟩ | ⟨h, rfl⟩ | ⟨h, rfl⟩ | ⟨h, rfl⟩ <;>
      first | rfl | exact absurd h hn
  | setting set h =>
    simp only [valueFlags, List.mem_cons, Prod.mk.injEq, List.not_mem_nil, or_false] at h
    rcases h with ⟨h, rfl⟩ | ⟨h, rfl⟩ | ⟨h, rfl⟩ | ⟨h, rfl⟩ <;>
      first | rfl | exact absurd h hn | (dsimp only; cases atoi (o.value.getD []) <;> rfl)
  | nothing => rfl

theorem set_offline (atoi : Str → Option Int) (o : Opt) (f : Flags) (hv : o.Valid atoi) (hn : o.name = g!"offline") :
    Switched o (apply atoi f o).offline := by
  have hdoes := does atoi f o
  generalize apply atoi f o = f' at hdoes ⊢
  cases hdoes with
  | switch set b h hb =>
    simp only [boolFlags, List.mem_cons, Prod.mk.injEq, List.not_mem_nil, or_false, hn] at h
    rcases h with ⟨h, rfl⟩ | ⟨h, rfl⟩ | ⟨h, rfl⟩ | ⟨h, rfl⟩ | ⟨h, rfl⟩ | ⟨h, rfl⟩ | ⟨h, rfl⟩ | ⟨h, rfl⟩ | ⟨h, rfl⟩ | ⟨h, rfl⟩ | ⟨h, rfl⟩ <;>
      first | exact absurd h (by decide) | exact hb hv
  | setting set h =>
    simp only [valueFlags, List.mem_cons, Prod.mk.injEq, List.not_mem_nil, or_false, hn] at h
    rcases h with ⟨h, rfl⟩ | ⟨h, rfl⟩ | ⟨h, rfl⟩ | ⟨h, rfl⟩ <;> exact absurd h (by decide)
  | nothing h => exact absurd (by rw [hn]; decide) h

theorem same_noConfig (atoi : Str → Option Int) (o : Opt) (f : Flags) (hn : o.name ≠ g!"no-config") :
    (apply atoi f o).noConfig = f.noConfig := by
  have hdoes := does atoi f o
  generalize apply atoi f o = f' at hdoes ⊢
  cases hdoes with
  | switch set b h hb =>
    simp only [boolFlags, List.mem_cons, Prod.mk.injEq, List.not_mem_nil, or_false] at h
    rcases h with ⟨h, rfl⟩ | ⟨h, rfl⟩ | ⟨h, rfl⟩ | ⟨h, rfl⟩ | ⟨h, rfl⟩ | ⟨h, rfl⟩ | ⟨h, rfl⟩ | ⟨h, rfl⟩ | ⟨h, rfl⟩ | ⟨h, rfl⟩ | ⟨h, rfl⟩ <;>
      first | rfl | exact absurd h hn
  | setting set h =>
    simp only [valueFlags, List.mem_cons, Prod.mk.injEq, List.not_mem_nil, or_false] at h
    rcases h with ⟨h, rfl⟩ | ⟨h, rfl⟩ | ⟨h, rfl⟩ | ⟨h, rfl⟩ <;>
      first | rfl | exact absurd h hn | (dsimp only; cases atoi (o.value.getD []) <;> rfl)
  | nothing => rfl

theorem set_noConfig (atoi : Str → Option Int) (o : Opt) (f : Flags) (hv : o.Valid atoi) (hn : o.name = g!"no-config") :
    Switched o (apply atoi f o).noConfig := by
  have hdoes := does atoi f o
  generalize apply atoi f o = f' at hdoes ⊢
  cases hdoes with
  | switch set b h hb =>
    simp only [boolFlags, List.mem_cons, Prod.mk.injEq, List.not_mem_nil, or_false, hn] at h
    rcases h with ⟨h, rfl⟩ | ⟨h, rfl⟩ | ⟨h, rfl⟩ | ⟨h, rfl⟩ | ⟨h, rfl⟩ | ⟨h, rfl⟩ | ⟨h, rfl⟩ | ⟨h, rfl⟩ | ⟨h, rfl⟩ | ⟨h, rfl⟩ | ⟨h, rfl⟩ <;>
      first | exact absurd h (by decide) | exact hb hv
  | setting set h =>
    simp only [valueFlags, List.mem_cons, Prod.mk.injEq, List.not_mem_nil, or_false, hn] at h
    rcases h with ⟨h, rfl⟩ | ⟨h, rfl⟩ | ⟨h, rfl⟩ | ⟨h, rfl⟩ <;> exact absurd h (by decide)
  | nothing h => exact absurd (by rw [hn]; decide) h

theorem same_updateConfigIgnores (atoi : Str → Option Int) (o : Opt) (f : Flags) (hn : o.name ≠ g!"update-config-ignores") :
    (apply atoi f o).updateConfigIgnores = f.updateConfigIgnores := by
  have hdoes := does atoi f o
  generalize apply atoi f o = f' at hdoes ⊢
  cases hdoes with
  | switch set b h hb =>
    simp only [boolFlags, List.mem_cons, Prod.mk.injEq, List.not_mem_nil, or_false] at h
    rcases h with ⟨h, rfl⟩ | ⟨h, rfl⟩ | ⟨h, rfl⟩ | ⟨h, rfl⟩ | ⟨h, rfl⟩ | ⟨h, rfl⟩ | ⟨h, rfl⟩ | ⟨h, rfl⟩ | ⟨h, rfl⟩ | ⟨h, rfl⟩ | ⟨h, rfl⟩ <;>
      first | rfl | exact absurd h hn
  | setting set h =>
    simp only [valueFlags, List.mem_cons, Prod.mk.injEq, List.not_mem_nil, or_false] at h
    rcases h with ⟨h, rfl⟩ | ⟨h, rfl⟩ | ⟨h, rfl⟩ | ⟨h, rfl⟩ <;>
      first | rfl | exact absurd h hn | (dsimp only; cases atoi (o.value.getD []) <;> rfl)
  | nothing => rfl

theorem set_updateConfigIgnores (atoi : Str → Option Int) (o : Opt) (f : Flags) (hv : o.Valid atoi) (hn : o.name = g!"update-config-ignores") :
    Switched o (apply atoi f o).updateConfigIgnores := by
  have hdoes := does atoi f o
  generalize apply atoi f o = f' at hdoes ⊢
  cases hdoes with
  | switch set b h hb =>
    simp only [boolFlags, List.mem_cons, Prod.mk.injEq, List.not_mem_nil, or_false, hn] at h
    rcases h with ⟨h, rfl⟩ | ⟨h, rfl⟩ | ⟨h, rfl⟩ | ⟨h, rfl⟩ | ⟨h, rfl⟩ | ⟨h, rfl⟩ | ⟨h, rfl⟩ | ⟨h, rfl⟩ | ⟨h, rfl⟩ | ⟨h, rfl⟩ | ⟨h, rfl⟩ <;>
      first | exact absurd h (by decide) | exact hb hv
  | setting set h =>
    simp only [valueFlags, List.mem_cons, Prod.mk.injEq, List.not_mem_nil, or_false, hn] at h
    rcases h with ⟨h, rfl⟩ | ⟨h, rfl⟩ | ⟨h, rfl⟩ | ⟨h, rfl⟩ <;> exact absurd h (by decide)
  | nothing h => exact absurd (by rw [hn]; decide) h

theorem same_noConfigIgnores (atoi : Str → Option Int) (o : Opt) (f : Flags) (hn : o.name ≠ g!"no-config-ignores") :
    (apply atoi f o).noConfigIgnores = f.noConfigIgnores := by
  have hdoes := does atoi f o
  generalize apply atoi f o = f' at hdoes ⊢
  cases hdoes with
  | switch set b h hb =>
    simp only [boolFlags, List.mem_cons, Prod.mk.injEq, List.not_mem_nil, or_false] at h
    rcases h with ⟨h, rfl⟩ | ⟨h, rfl⟩ | ⟨h, rfl⟩ | ⟨h, rfl⟩ | ⟨h, rfl⟩ | ⟨h, rfl⟩ | ⟨h, rfl⟩ | ⟨h, rfl⟩ | ⟨h, rfl⟩ | ⟨h, rfl⟩ | ⟨h, rfl⟩ <;>
      first | rfl | exact absurd h hn
  | setting set h =>
    simp only [valueFlags, List.mem_cons, Prod.mk.injEq, List.not_mem_nil, or_false] at h
    rcases h with ⟨h, rfl⟩ | ⟨h, rfl⟩ | ⟨h, rfl⟩ | ⟨h, rfl⟩ <;>
      first | rfl | exact absurd h hn | (dsimp only; cases atoi (o.value.getD []) <;> rfl)
  | nothing => rfl

theorem set_noConfigIgnores (atoi : Str → Option Int) (o : Opt) (f : Flags) (hv : o.Valid atoi) (hn : o.name = g!"no-config-ignores") :
    Switched o (apply atoi f o).noConfigIgnores := by
  have hdoes := does atoi f o
  generalize apply atoi f o = f' at hdoes ⊢
  cases hdoes with
  | switch set b h hb =>
    simp only [boolFlags, List.mem_cons, Prod.mk.injEq, List.not_mem_nil, or_false, hn] at h
    rcases h with ⟨h, rfl⟩ | ⟨h, rfl⟩ | ⟨h, rfl⟩ | ⟨h, rfl⟩ | ⟨h, rfl⟩ | ⟨h, rfl⟩ | ⟨h, rfl⟩ | ⟨h, rfl⟩ | ⟨h, rfl⟩ | ⟨h, rfl⟩ | ⟨h, rfl⟩ <;>
      first | exact absurd h (by decide) | exact hb hv
  | setting set h =>
    simp only [valueFlags, List.mem_cons, Prod.mk.injEq, List.not_mem_nil, or_false, hn] at h
    rcases h with ⟨h, rfl⟩ | ⟨h, rfl⟩ | ⟨h, rfl⟩ | ⟨h, rfl⟩ <;> exact absurd h (by decide)
  | nothing h => exact absurd (by rw [hn]; decide) h

theorem same_noConfigDatabases (atoi : Str → Option Int) (o : Opt) (f : Flags) (hn : o.name ≠ g!"no-config-databases") :
    (apply atoi f o).noConfigDatabases = f.noConfigDatabases := by
  have hdoes := does atoi f o
  generalize apply atoi f o = f' at hdoes ⊢
  cases hdoes with
  | switch set b h hb =>
    simp only [boolFlags, List.mem_cons, Prod.mk.injEq, List.not_mem_nil, or_false] at h
    rcases h with ⟨h, rfl⟩ | ⟨h, rfl⟩ | ⟨h, rfl⟩ | ⟨h, rfl⟩ | ⟨h, rfl⟩ | ⟨h, rfl⟩ | ⟨h, rfl⟩ | ⟨h, rfl⟩ | ⟨h, rfl⟩ | ⟨h, rfl⟩ | ⟨h, rfl⟩ <;>
      first | rfl | exact absurd h hn
  | setting set h =>
    simp only [valueFlags, List.mem_cons, Prod.mk.injEq, List.not_mem_nil, or_false] at h
    rcases h with ⟨h, rfl⟩ | ⟨h, rfl⟩ | ⟨h, rfl⟩ | ⟨h, rfl⟩ <;>
      first | rfl | exact absurd h hn | (dsimp only; cases atoi (o.value.getD []) <;> rfl)
  | nothing => rfl

theorem set_noConfigDatabases (atoi : Str → Option Int) (o : Opt) (f : Flags) (hv : o.Valid atoi) (hn : o.name = g!"no-config-databases") :
    Switched o (apply atoi f o).noConfigDatabases := by
  have hdoes := does atoi f o
  generalize apply atoi f o = f' at hdoes ⊢
  cases hdoes with
  | switch set b h hb =>
    simp only [boolFlags, List.mem_cons, Prod.mk.injEq, List.not_mem_nil, or_false, hn] at h
    rcases h with ⟨h, rfl⟩ | ⟨h, rfl⟩ | ⟨h, rfl⟩ | ⟨h, rfl⟩ | ⟨h, rfl⟩ | ⟨h, rfl⟩ | ⟨h, rfl⟩ | ⟨h, rfl⟩ | ⟨h, rfl⟩ | ⟨h, rfl⟩ | ⟨h, rfl⟩ <;>
      first | exact absurd h (by decide) | exact hb hv
  | setting set h =>
    simp only [valueFlags, List.mem_cons, Prod.mk.injEq, List.not_mem_nil, or_false, hn] at h
    rcases h with ⟨h, rfl⟩ | ⟨h, rfl⟩ | ⟨h, rfl⟩ | ⟨h, rfl⟩ <;> exact absurd h (by decide)
  | nothing h => exact absurd (by rw [hn]; decide) h

theorem same_printVersion (atoi : Str → Option Int) (o : Opt) (f : Flags) (hn : o.name ≠ g!"version") :
    (apply atoi f o).printVersion = f.printVersion := by
  have hdoes := does atoi f o
  generalize apply atoi f o = f' at hdoes ⊢
  cases hdoes with
  | switch set b h hb =>
    simp only [boolFlags, List.mem_cons, Prod.mk.injEq, List.not_mem_nil, or_false] at h
    rcases h with ⟨h, rfl⟩ | ⟨h, rfl⟩ | ⟨h, rfl⟩ | ⟨h, rfl⟩ | ⟨h, rfl⟩ | ⟨h, rfl⟩ | ⟨h, rfl⟩ | ⟨h, rfl⟩ | ⟨h, rfl⟩ | ⟨h, rfl⟩ | ⟨h, rfl⟩ <;>
      first | rfl | exact absurd h hn
  | setting set h =>
    simp only [valueFlags, List.mem_cons, Prod.mk.injEq, List.not_mem_nil, or_false] at h
    rcases h with ⟨h, rfl⟩ | ⟨h, rfl⟩ | ⟨h, rfl⟩ | ⟨h, rfl⟩ <;>
      first | rfl | exact absurd h hn | (dsimp only; cases atoi (o.value.getD []) <;> rfl)
  | nothing => rfl

theorem set_printVersion (atoi : Str → Option Int) (o : Opt) (f : Flags) (hv : o.Valid atoi) (hn : o.name = g!"version") :
    Switched o (apply atoi f o).printVersion := by
  have hdoes := does atoi f o
  generalize apply atoi f o = f' at hdoes ⊢
  cases hdoes with
  | switch set b h hb =>
    simp only [boolFlags, List.mem_cons, Prod.mk.injEq, List.not_mem_nil, or_false, hn] at h
    rcases h with ⟨h, rfl⟩ | ⟨h, rfl⟩ | ⟨h, rfl⟩ | ⟨h, rfl⟩ | ⟨h, rfl⟩ | ⟨h, rfl⟩ | ⟨h, rfl⟩ | ⟨h, rfl⟩ | ⟨h, rfl⟩ | ⟨h, rfl⟩ | ⟨h, rfl⟩ <;>
      first | exact absurd h (by decide) | exact hb hv
  | setting set h =>
    simp only [valueFlags, List.mem_cons, Prod.mk.injEq, List.not_mem_nil, or_false, hn] at h
    rcases h with ⟨h, rfl⟩ | ⟨h, rfl⟩ | ⟨h, rfl⟩ | ⟨h, rfl⟩ <;> exact absurd h (by decide)
  | nothing h => exact absurd (by rw [hn]; decide) h

theorem same_listEcosystems (atoi : Str → Option Int) (o : Opt) (f : Flags) (hn : o.name ≠ g!"list-ecosystems") :
    (apply atoi f o).listEcosystems = f.listEcosystems := by
  have hdoes := does atoi f o
  generalize apply atoi f o = f' at hdoes ⊢
  cases hdoes with
  | switch set b h hb =>
    simp only [boolFlags, List.mem_cons, Prod.mk.injEq, List.not_mem_nil, or_false] at h
    rcases h with ⟨h, rfl⟩ | ⟨h, rfl⟩ | ⟨h, rfl⟩ | ⟨h, rfl⟩ | ⟨h, rfl⟩ | ⟨h, rfl⟩ | ⟨h, rfl⟩ | ⟨h, rfl⟩ | ⟨h, rfl⟩ | ⟨h, rfl⟩ | ⟨h, rfl⟩ <;>
      first | rfl | exact absurd h hn
  | setting set h =>
    simp only [valueFlags, List.mem_cons, Prod.mk.injEq, List.not_mem_nil, or_false] at h
    rcases h with ⟨h, rfl⟩ | ⟨h, rfl⟩ | ⟨h, rfl⟩ | ⟨h, rfl⟩ <;>
      first | rfl | exact absurd h hn | (dsimp only; cases atoi (o.value.getD []) <;> rfl)
  | nothing => rfl

theorem set_listEcosystems (atoi : Str → Option Int) (o : Opt) (f : Flags) (hv : o.Valid atoi) (hn : o.name = g!"list-ecosystems") :
    Switched o (apply atoi f o).listEcosystems := by
  have hdoes := does atoi f o
  generalize apply atoi f o = f' at hdoes ⊢
  cases hdoes with
  | switch set b h hb =>
    simp only [boolFlags, List.mem_cons, Prod.mk.injEq, List.not_mem_nil, or_false, hn] at h
    rcases h with ⟨h, rfl⟩ | ⟨h, rfl⟩ | ⟨h, rfl⟩ | ⟨h, rfl⟩ | ⟨h, rfl⟩ | ⟨h, rfl⟩ | ⟨h, rfl⟩ | ⟨h, rfl⟩ | ⟨h, rfl⟩ | ⟨h, rfl⟩ | ⟨h, rfl⟩ <;>
      first | exact absurd h (by decide) | exact hb hv
  | setting set h =>
    simp only [valueFlags, List.mem_cons, Prod.mk.injEq, List.not_mem_nil, or_false, hn] at h
    rcases h with ⟨h, rfl⟩ | ⟨h, rfl⟩ | ⟨h, rfl⟩ | ⟨h, rfl⟩ <;> exact absurd h (by decide)
  | nothing h => exact absurd (by rw [hn]; decide) h

theorem same_listPackages (atoi : Str → Option Int) (o : Opt) (f : Flags) (hn : o.name ≠ g!"list-packages") :
    (apply atoi f o).listPackages = f.listPackages := by
  have hdoes := does atoi f o
  generalize apply atoi f o = f' at hdoes ⊢
  cases hdoes with
  | switch set b h hb =>
    simp only [boolFlags, List.mem_cons, Prod.mk.injEq, List.not_mem_nil, or_false] at h
    rcases h with ⟨h, rfl⟩ | ⟨h, rfl⟩ | ⟨h, rfl⟩ | ⟨h, rfl⟩ | ⟨h, rfl⟩ | ⟨h, rfl⟩ | ⟨h, rfl⟩ | ⟨h, rfl⟩ | ⟨h, rfl⟩ | ⟨h, rfl⟩ | ⟨h, rfl⟩ <;>
      first | rfl | exact absurd h hn
  | setting set h =>
    simp only [valueFlags, List.mem_cons, Prod.mk.injEq, List.not_mem_nil, or_false] at h
    rcases h with ⟨h, rfl⟩ | ⟨h, rfl⟩ | ⟨h, rfl⟩ | ⟨h, rfl⟩ <;>
      first | rfl | exact absurd h hn | (dsimp only; cases atoi (o.value.getD []) <;> rfl)
  | nothing => rfl

theorem set_listPackages (atoi : Str → Option Int) (o : Opt) (f : Flags) (hv : o.Valid atoi) (hn : o.name = g!"list-packages") :
    Switched o (apply atoi f o).listPackages := by
  have hdoes := does atoi f o
  generalize apply atoi f o = f' at hdoes ⊢
  cases hdoes with
  | switch set b h hb =>
    simp only [boolFlags, List.mem_cons, Prod.mk.injEq, List.not_mem_nil, or_false, hn] at h
    rcases h with ⟨h, rfl⟩ | ⟨h, rfl⟩ | ⟨h, rfl⟩ | ⟨h, rfl⟩ | ⟨h, rfl⟩ | ⟨h, rfl⟩ | ⟨h, rfl⟩ | ⟨h, rfl⟩ | ⟨h, rfl⟩ | ⟨h, rfl⟩ | ⟨h, rfl⟩ <;>
      first | exact absurd h (by decide) | exact hb hv
  | setting set h =>
    simp only [valueFlags, List.mem_cons, Prod.mk.injEq, List.not_mem_nil, or_false, hn] at h
    rcases h with ⟨h, rfl⟩ | ⟨h, rfl⟩ | ⟨h, rfl⟩ | ⟨h, rfl⟩ <;> exact absurd h (by decide)
  | nothing h => exact absurd (by rw [hn]; decide) h

theorem same_json (atoi : Str → Option Int) (o : Opt) (f : Flags) (hn : o.name ≠ g!"json") :
    (apply atoi f o).json = f.json := by
  have hdoes := does atoi f o
  generalize apply atoi f o = f' at hdoes ⊢
  cases hdoes with
  | switch set b h hb =>
    simp only [boolFlags, List.mem_cons, Prod.mk.injEq, List.not_mem_nil, or_false] at h
    rcases h with ⟨h, rfl⟩ | ⟨h, rfl⟩ | ⟨h, rfl⟩ | ⟨h, rfl⟩ | ⟨h, rfl⟩ | ⟨h, rfl⟩ | ⟨h, rfl⟩ | ⟨h, rfl⟩ | ⟨h, rfl⟩ | ⟨h, rfl⟩ | ⟨h, rfl⟩ <;>
      first | rfl | exact absurd h hn
  | setting set h =>
    simp only [valueFlags, List.mem_cons, Prod.mk.injEq, List.not_mem_nil, or_false] at h
    rcases h with ⟨h, rfl⟩ | ⟨h, rfl⟩ | ⟨h, rfl⟩ | ⟨h, rfl⟩ <;>
      first | rfl | exact absurd h hn | (dsimp only; cases atoi (o.value.getD []) <;> rfl)
  | nothing => rfl

theorem set_json (atoi : Str → Option Int) (o : Opt) (f : Flags) (hv : o.Valid atoi) (hn : o.name = g!"json") :
    Switched o (apply atoi f o).json := by
  have hdoes := does atoi f o
  generalize apply atoi f o = f' at hdoes ⊢
  cases hdoes with
  | switch set b h hb =>
    simp only [boolFlags, List.mem_cons, Prod.mk.injEq, List.not_mem_nil, or_false, hn] at h
    rcases h with ⟨h, rfl⟩ | ⟨h, rfl⟩ | ⟨h, rfl⟩ | ⟨h, rfl⟩ | ⟨h, rfl⟩ | ⟨h, rfl⟩ | ⟨h, rfl⟩ | ⟨h, rfl⟩ | ⟨h, rfl⟩ | ⟨h, rfl⟩ | ⟨h, rfl⟩ <;>
      first | exact absurd h (by decide) | exact hb hv
  | setting set h =>
    simp only [valueFlags, List.mem_cons, Prod.mk.injEq, List.not_mem_nil, or_false, hn] at h
    rcases h with ⟨h, rfl⟩ | ⟨h, rfl⟩ | ⟨h, rfl⟩ | ⟨h, rfl⟩ <;> exact absurd h (by decide)
  | nothing h => exact absurd (by rw [hn]; decide) h

theorem same_useDatabases (atoi : Str → Option Int) (o : Opt) (f : Flags) (hn : o.name ≠ g!"use-dbs") :
    (apply atoi f o).useDatabases = f.useDatabases := by
  have hdoes := does atoi f o
  generalize apply atoi f o = f' at hdoes ⊢
  cases hdoes with
  | switch set b h hb =>
    simp only [boolFlags, List.mem_cons, Prod.mk.injEq, List.not_mem_nil, or_false] at h
    rcases h with ⟨h, rfl⟩ | ⟨h, rfl⟩ | ⟨h, rfl⟩ | ⟨h, rfl⟩ | ⟨h, rfl⟩ | ⟨h, rfl⟩ | ⟨h, rfl⟩ | ⟨h, rfl⟩ | ⟨h, rfl⟩ | ⟨h, rfl⟩ | ⟨h, rfl⟩ <;>
      first | rfl | exact absurd h hn
  | setting set h =>
    simp only [valueFlags, List.mem_cons, Prod.mk.injEq, List.not_mem_nil, or_false] at h
    rcases h with ⟨h, rfl⟩ | ⟨h, rfl⟩ | ⟨h, rfl⟩ | ⟨h, rfl⟩ <;>
      first | rfl | exact absurd h hn | (dsimp only; cases atoi (o.value.getD []) <;> rfl)
  | nothing => rfl

theorem set_useDatabases (atoi : Str → Option Int) (o : Opt) (f : Flags) (hv : o.Valid atoi) (hn : o.name = g!"use-dbs") :
    Switched o (apply atoi f o).useDatabases := by
  have hdoes := does atoi f o
  generalize apply atoi f o = f' at hdoes ⊢
  cases hdoes with
  | switch set b h hb =>
    simp only [boolFlags, List.mem_cons, Prod.mk.injEq, List.not_mem_nil, or_false, hn] at h
    rcases h with ⟨h, rfl⟩ | ⟨h, rfl⟩ | ⟨h, rfl⟩ | ⟨h, rfl⟩ | ⟨h, rfl⟩ | ⟨h, rfl⟩ | ⟨h, rfl⟩ | ⟨h, rfl⟩ | ⟨h, rfl⟩ | ⟨h, rfl⟩ | ⟨h, rfl⟩ <;>
      first | exact absurd h (by decide) | exact hb hv
  | setting set h =>
    simp only [valueFlags, List.mem_cons, Prod.mk.injEq, List.not_mem_nil, or_false, hn] at h
    rcases h with ⟨h, rfl⟩ | ⟨h, rfl⟩ | ⟨h, rfl⟩ | ⟨h, rfl⟩ <;> exact absurd h (by decide)
  | nothing h => exact absurd (by rw [hn]; decide) h

theorem same_useAPI (atoi : Str → Option Int) (o : Opt) (f : Flags) (hn : o.name ≠ g!"use-api") :
    (apply atoi f o).useAPI = f.useAPI := by
  have hdoes := does atoi f o
  generalize apply atoi f o = f' at hdoes ⊢
  cases hdoes with
  | switch set b h hb =>
    simp only [boolFlags, List.mem_cons, Prod.mk.injEq, List.not_mem_nil, or_false] at h
    rcases h with ⟨h, rfl⟩ | ⟨h, rfl⟩ | ⟨h, rfl⟩ | ⟨h, rfl⟩ | ⟨h, rfl⟩ | ⟨h, rfl⟩ | ⟨h, rfl⟩ | ⟨h, rfl⟩ | ⟨h, rfl⟩ | ⟨h, rfl⟩ | ⟨h, rfl⟩ <;>
      first | rfl | exact absurd h hn
  | setting set h =>
    simp only [valueFlags, List.mem_cons, Prod.mk.injEq, List.not_mem_nil, or_false] at h
    rcases h with ⟨h, rfl⟩ | ⟨h, rfl⟩ | ⟨h, rfl⟩ | ⟨h, rfl⟩ <;>
      first | rfl | exact absurd h hn | (dsimp only; cases atoi (o.value.getD []) <;> rfl)
  | nothing => rfl

theorem set_useAPI (atoi : Str → Option Int) (o : Opt) (f : Flags) (hv : o.Valid atoi) (hn : o.name = g!"use-api") :
    Switched o (apply atoi f o).useAPI := by
  have hdoes := does atoi f o
  generalize apply atoi f o = f' at hdoes ⊢
  cases hdoes with
  | switch set b h hb =>
    simp only [boolFlags, List.mem_cons, Prod.mk.injEq, List.not_mem_nil, or_false, hn] at h
    rcases h with ⟨h, rfl⟩ | ⟨h, rfl⟩ | ⟨h, rfl⟩ | ⟨h, rfl⟩ | ⟨h, rfl⟩ | ⟨h, rfl⟩ | ⟨h, rfl⟩ | ⟨h, rfl⟩ | ⟨h, rfl⟩ | ⟨h, rfl⟩ | ⟨h, rfl⟩ <;>
      first | exact absurd h (by decide) | exact hb hv
  | setting set h =>
    simp only [valueFlags, List.mem_cons, Prod.mk.injEq, List.not_mem_nil, or_false, hn] at h
    rcases h with ⟨h, rfl⟩ | ⟨h, rfl⟩ | ⟨h, rfl⟩ | ⟨h, rfl⟩ <;> exact absurd h (by decide)
  | nothing h => exact absurd (by rw [hn]; decide) h

theorem same_parseAs (atoi : Str → Option Int) (o : Opt) (f : Flags) (hn : o.name ≠ g!"parse-as") :
    (apply atoi f o).parseAs = f.parseAs := by
  have hdoes := does atoi f o
  generalize apply atoi f o = f' at hdoes ⊢
  cases hdoes with
  | switch set b h hb =>
    simp only [boolFlags, List.mem_cons, Prod.mk.injEq, List.not_mem_nil, or_false] at h
    rcases h with ⟨h, rfl⟩ | ⟨h, rfl⟩ | ⟨h, rfl⟩ | ⟨h, rfl⟩ | ⟨h, rfl⟩ | ⟨h, rfl⟩ | ⟨h, rfl⟩ | ⟨h, rfl⟩ | ⟨h, rfl⟩ | ⟨h, rfl⟩ | ⟨h, rfl⟩ <;>
      first | rfl | exact absurd h hn
  | setting set h =>
    simp only [valueFlags, List.mem_cons, Prod.mk.injEq, List.not_mem_nil, or_false] at h
    rcases h with ⟨h, rfl⟩ | ⟨h, rfl⟩ | ⟨h, rfl⟩ | ⟨h, rfl⟩ <;>
      first | rfl | exact absurd h hn | (dsimp only; cases atoi (o.value.getD []) <;> rfl)
  | nothing => rfl

theorem set_parseAs (atoi : Str → Option Int) (o : Opt) (f : Flags) (hv : o.Valid atoi) (hn : o.name = g!"parse-as") :
    o.value = some (apply atoi f o).parseAs := by
  have hval : ∃ v, o.value = some v ∧ (o.name = g!"batch-size" → ∃ n, atoi v = some n) := by
    rcases hv.2 with ⟨h, -⟩ | ⟨-, h⟩
    · rw [hn] at h; exact absurd h (by decide)
    · exact h
  obtain ⟨v, hval, hbs⟩ := hval
  have hdoes := does atoi f o
  generalize apply atoi f o = f' at hdoes ⊢
  cases hdoes with
  | switch set b h hb =>
    simp only [boolFlags, List.mem_cons, Prod.mk.injEq, List.not_mem_nil, or_false, hn] at h
    rcases h with ⟨h, rfl⟩ | ⟨h, rfl⟩ | ⟨h, rfl⟩ | ⟨h, rfl⟩ | ⟨h, rfl⟩ | ⟨h, rfl⟩ | ⟨h, rfl⟩ | ⟨h, rfl⟩ | ⟨h, rfl⟩ | ⟨h, rfl⟩ | ⟨h, rfl⟩ <;>
      exact absurd h (by decide)
  | setting set h =>
    simp only [valueFlags, List.mem_cons, Prod.mk.injEq, List.not_mem_nil, or_false, hn] at h
    rcases h with ⟨h, rfl⟩ | ⟨h, rfl⟩ | ⟨h, rfl⟩ | ⟨h, rfl⟩ <;> first | exact absurd h (by decide) | (rw [hval]; rfl)
  | nothing _ h => exact absurd (by rw [hn]; decide) h

theorem same_configPath (atoi : Str → Option Int) (o : Opt) (f : Flags) (hn : o.name ≠ g!"config") :
    (apply atoi f o).configPath = f.configPath := by
  have hdoes := does atoi f o
  generalize apply atoi f o = f' at hdoes ⊢
  cases hdoes with
  | switch set b h hb =>
    simp only [boolFlags, List.mem_cons, Prod.mk.injEq, List.not_mem_nil, or_false] at h
    rcases h with ⟨h, rfl⟩ | ⟨h, rfl⟩ | ⟨h, rfl⟩ | ⟨h, rfl⟩ | ⟨h, rfl⟩ | ⟨h, rfl⟩ | ⟨h, rfl⟩ | ⟨h, rfl⟩ | ⟨h, rfl⟩ | ⟨h, rfl⟩ | ⟨h, rfl⟩ <;>
      first | rfl | exact absurd h hn
  | setting set h =>
    simp only [valueFlags, List.mem_cons, Prod.mk.injEq, List.not_mem_nil, or_false] at h
    rcases h with ⟨h, rfl⟩ | ⟨h, rfl⟩ | ⟨h, rfl⟩ | ⟨h, rfl⟩ <;>
      first | rfl | exact absurd h hn | (dsimp only; cases atoi (o.value.getD []) <;> rfl)
  | nothing => rfl

theorem set_configPath (atoi : Str → Option Int) (o : Opt) (f : Flags) (hv : o.Valid atoi) (hn : o.name = g!"config") :
    o.value = some (apply atoi f o).configPath := by
  have hval : ∃ v, o.value = some v ∧ (o.name = g!"batch-size" → ∃ n, atoi v = some n) := by
    rcases hv.2 with ⟨h, -⟩ | ⟨-, h⟩
    · rw [hn] at h; exact absurd h (by decide)
    · exact h
  obtain ⟨v, hval, hbs⟩ := hval
  have hdoes := does atoi f o
  generalize apply atoi f o = f' at hdoes ⊢
  cases hdoes with
  | switch set b h hb =>
    simp only [boolFlags, List.mem_cons, Prod.mk.injEq, List.not_mem_nil, or_false, hn] at h
    rcases h with ⟨h, rfl⟩ | ⟨h, rfl⟩ | ⟨h, rfl⟩ | ⟨h, rfl⟩ | ⟨h, rfl⟩ | ⟨h, rfl⟩ | ⟨h, rfl⟩ | ⟨h, rfl⟩ | ⟨h, rfl⟩ | ⟨h, rfl⟩ | ⟨h, rfl⟩ <;>
      exact absurd h (by decide)
  | setting set h =>
    simp only [valueFlags, List.mem_cons, Prod.mk.injEq, List.not_mem_nil, or_false, hn] at h
    rcases h with ⟨h, rfl⟩ | ⟨h, rfl⟩ | ⟨h, rfl⟩ | ⟨h, rfl⟩ <;> first | exact absurd h (by decide) | (rw [hval]; rfl)
  | nothing _ h => exact absurd (by rw [hn]; decide) h

theorem same_batchSize (atoi : Str → Option Int) (o : Opt) (f : Flags) (hn : o.name ≠ g!"batch-size") :
    (apply atoi f o).batchSize = f.batchSize := by
  have hdoes := does atoi f o
  generalize apply atoi f o = f' at hdoes ⊢
  cases hdoes with
  | switch set b h hb =>
    simp only [boolFlags, List.mem_cons, Prod.mk.injEq, List.not_mem_nil, or_false] at h
    rcases h with ⟨h, rfl⟩ | ⟨h, rfl⟩ | ⟨h, rfl⟩ | ⟨h, rfl⟩ | ⟨h, rfl⟩ | ⟨h, rfl⟩ | ⟨h, rfl⟩ | ⟨h, rfl⟩ | ⟨h, rfl⟩ | ⟨h, rfl⟩ | ⟨h, rfl⟩ <;>
      first | rfl | exact absurd h hn
  | setting set h =>
    simp only [valueFlags, List.mem_cons, Prod.mk.injEq, List.not_mem_nil, or_false] at h
    rcases h with ⟨h, rfl⟩ | ⟨h, rfl⟩ | ⟨h, rfl⟩ | ⟨h, rfl⟩ <;>
      first | rfl | exact absurd h hn | (dsimp only; cases atoi (o.value.getD []) <;> rfl)
  | nothing => rfl

theorem set_batchSize (atoi : Str → Option Int) (o : Opt) (f : Flags) (hv : o.Valid atoi) (hn : o.name = g!"batch-size") :
    ∃ v, o.value = some v ∧ atoi v = some (apply atoi f o).batchSize := by
  have hval : ∃ v, o.value = some v ∧ (o.name = g!"batch-size" → ∃ n, atoi v = some n) := by
    rcases hv.2 with ⟨h, -⟩ | ⟨-, h⟩
    · rw [hn] at h; exact absurd h (by decide)
    · exact h
  obtain ⟨v, hval, hbs⟩ := hval
  have hdoes := does atoi f o
  generalize apply atoi f o = f' at hdoes ⊢
  cases hdoes with
  | switch set b h hb =>
    simp only [boolFlags, List.mem_cons, Prod.mk.injEq, List.not_mem_nil, or_false, hn] at h
    rcases h with ⟨h, rfl⟩ | ⟨h, rfl⟩ | ⟨h, rfl⟩ | ⟨h, rfl⟩ | ⟨h, rfl⟩ | ⟨h, rfl⟩ | ⟨h, rfl⟩ | ⟨h, rfl⟩ | ⟨h, rfl⟩ | ⟨h, rfl⟩ | ⟨h, rfl⟩ <;>
      exact absurd h (by decide)
  | setting set h =>
    simp only [valueFlags, List.mem_cons, Prod.mk.injEq, List.not_mem_nil, or_false, hn] at h
    rcases h with ⟨h, rfl⟩ | ⟨h, rfl⟩ | ⟨h, rfl⟩ | ⟨h, rfl⟩ <;> first | exact absurd h (by decide) | (obtain ⟨n, hb⟩ := hbs hn; exact ⟨v, hval, by rw [hval]; dsimp only [Option.getD_some]; rw [hb]; rfl⟩)
  | nothing _ h => exact absurd (by rw [hn]; decide) h

theorem same_globalIgnores (atoi : Str → Option Int) (o : Opt) (f : Flags) (hn : o.name ≠ g!"ignore") :
    (apply atoi f o).globalIgnores = f.globalIgnores := by
  have hdoes := does atoi f o
  generalize apply atoi f o = f' at hdoes ⊢
  cases hdoes with
  | switch set b h hb =>
    simp only [boolFlags, List.mem_cons, Prod.mk.injEq, List.not_mem_nil, or_false] at h
    rcases h with ⟨h, rfl⟩ | ⟨h, rfl⟩ | ⟨h, rfl⟩ | ⟨h, rfl⟩ | ⟨h, rfl⟩ | ⟨h, rfl⟩ | ⟨h, rfl⟩ | ⟨h, rfl⟩ | ⟨h, rfl⟩ | ⟨h, rfl⟩ | ⟨h, rfl⟩ <;>
      first | rfl | exact absurd h hn
  | setting set h =>
    simp only [valueFlags, List.mem_cons, Prod.mk.injEq, List.not_mem_nil, or_false] at h
    rcases h with ⟨h, rfl⟩ | ⟨h, rfl⟩ | ⟨h, rfl⟩ | ⟨h, rfl⟩ <;>
      first | rfl | exact absurd h hn | (dsimp only; cases atoi (o.value.getD []) <;> rfl)
  | nothing => rfl

theorem set_globalIgnores (atoi : Str → Option Int) (o : Opt) (f : Flags) (hv : o.Valid atoi) (hn : o.name = g!"ignore") :
    ∃ v, o.value = some v ∧ (apply atoi f o).globalIgnores = f.globalIgnores ++ [v] := by
  have hval : ∃ v, o.value = some v ∧ (o.name = g!"batch-size" → ∃ n, atoi v = some n) := by
    rcases hv.2 with ⟨h, -⟩ | ⟨-, h⟩
    · rw [hn] at h; exact absurd h (by decide)
    · exact h
  obtain ⟨v, hval, hbs⟩ := hval
  have hdoes := does atoi f o
  generalize apply atoi f o = f' at hdoes ⊢
  cases hdoes with
  | switch set b h hb =>
    simp only [boolFlags, List.mem_cons, Prod.mk.injEq, List.not_mem_nil, or_false, hn] at h
    rcases h with ⟨h, rfl⟩ | ⟨h, rfl⟩ | ⟨h, rfl⟩ | ⟨h, rfl⟩ | ⟨h, rfl⟩ | ⟨h, rfl⟩ | ⟨h, rfl⟩ | ⟨h, rfl⟩ | ⟨h, rfl⟩ | ⟨h, rfl⟩ | ⟨h, rfl⟩ <;>
      exact absurd h (by decide)
  | setting set h =>
    simp only [valueFlags, List.mem_cons, Prod.mk.injEq, List.not_mem_nil, or_false, hn] at h
    rcases h with ⟨h, rfl⟩ | ⟨h, rfl⟩ | ⟨h, rfl⟩ | ⟨h, rfl⟩ <;> first | exact absurd h (by decide) | (exact ⟨v, hval, by rw [hval]; rfl⟩)
  | nothing _ h => exact absurd (by rw [hn]; decide) h

theorem ignores_fold (atoi : Str → Option Int) (opts : List Opt) (h : ∀ o ∈ opts, o.Valid atoi) (f : Flags) :
    (opts.foldl (apply atoi) f).globalIgnores = f.globalIgnores ++ (opts.filter fun o => o.name = g!"ignore").filterMap (·.value) := by
  induction opts generalizing f with
  | nil => simp
  | cons o opts ih =>
    rw [List.foldl_cons, ih fun x hx => h x (by simp [hx])]
    by_cases hn : o.name = g!"ignore"
    · obtain ⟨v, hv, he⟩ := set_globalIgnores atoi o f (h o (by simp)) hn
      rw [he, List.filter_cons_of_pos (by simpa using hn), List.filterMap_cons_some hv]
      simp
    · rw [same_globalIgnores atoi o f hn, List.filter_cons_of_neg (by simpa using hn)]

/-- Options have the meaning of the specification. -/
theorem means (atoi : Str → Option Int) (preferAPI : Bool) (opts : List Opt) (h : ∀ o ∈ opts, o.Valid atoi) (paths : List Str) :
    Means atoi preferAPI opts paths { opts.foldl (apply atoi) (defaultFlags preferAPI) with args := paths } where
  offline := last_fold atoi (·.offline) _ _ (same_offline atoi) (set_offline atoi) opts h (defaultFlags preferAPI)
  noConfig := last_fold atoi (·.noConfig) _ _ (same_noConfig atoi) (set_noConfig atoi) opts h (defaultFlags preferAPI)
  updateConfigIgnores := last_fold atoi (·.updateConfigIgnores) _ _ (same_updateConfigIgnores atoi) (set_updateConfigIgnores atoi) opts h (defaultFlags preferAPI)
  noConfigIgnores := last_fold atoi (·.noConfigIgnores) _ _ (same_noConfigIgnores atoi) (set_noConfigIgnores atoi) opts h (defaultFlags preferAPI)
  noConfigDatabases := last_fold atoi (·.noConfigDatabases) _ _ (same_noConfigDatabases atoi) (set_noConfigDatabases atoi) opts h (defaultFlags preferAPI)
  printVersion := last_fold atoi (·.printVersion) _ _ (same_printVersion atoi) (set_printVersion atoi) opts h (defaultFlags preferAPI)
  listEcosystems := last_fold atoi (·.listEcosystems) _ _ (same_listEcosystems atoi) (set_listEcosystems atoi) opts h (defaultFlags preferAPI)
  listPackages := last_fold atoi (·.listPackages) _ _ (same_listPackages atoi) (set_listPackages atoi) opts h (defaultFlags preferAPI)
  json := last_fold atoi (·.json) _ _ (same_json atoi) (set_json atoi) opts h (defaultFlags preferAPI)
  useDatabases := last_fold atoi (·.useDatabases) _ _ (same_useDatabases atoi) (set_useDatabases atoi) opts h (defaultFlags preferAPI)
  useAPI := last_fold atoi (·.useAPI) _ _ (same_useAPI atoi) (set_useAPI atoi) opts h (defaultFlags preferAPI)
  parseAs := last_fold atoi (·.parseAs) _ (fun o x => o.value = some x) (same_parseAs atoi) (set_parseAs atoi) opts h (defaultFlags preferAPI)
  configPath := last_fold atoi (·.configPath) _ (fun o x => o.value = some x) (same_configPath atoi) (set_configPath atoi) opts h (defaultFlags preferAPI)
  batchSize := last_fold atoi (·.batchSize) _ (fun o x => ∃ v, o.value = some v ∧ atoi v = some x) (same_batchSize atoi) (set_batchSize atoi) opts h (defaultFlags preferAPI)
  globalIgnores := ignores_fold atoi opts h (defaultFlags preferAPI)
  args := rfl

theorem switched_unique (o : Opt) (a b : Bool) (ha : Switched o a) (hb : Switched o b) : a = b := by
  rw [← switched_iff] at ha hb
  exact Option.some.inj (ha.symm.trans hb)

/-- Options and paths have one meaning. -/
theorem means_unique {atoi : Str → Option Int} {preferAPI : Bool} {opts : List Opt} {paths : List Str} {f g : Flags}
    (hf : Means atoi preferAPI opts paths f) (hg : Means atoi preferAPI opts paths g) : f = g := by
  have hs : ∀ (o : Opt) (x y : Str), o.value = some x → o.value = some y → x = y := fun o x y h h' => Option.some.inj (h.symm.trans h')
  have e_offline : f.offline = g.offline := last_unique switched_unique hf.offline hg.offline
  have e_parseAs : f.parseAs = g.parseAs := last_unique hs hf.parseAs hg.parseAs
  have e_configPath : f.configPath = g.configPath := last_unique hs hf.configPath hg.configPath
  have e_noConfig : f.noConfig = g.noConfig := last_unique switched_unique hf.noConfig hg.noConfig
  have e_updateConfigIgnores : f.updateConfigIgnores = g.updateConfigIgnores := last_unique switched_unique hf.updateConfigIgnores hg.updateConfigIgnores
  have e_noConfigIgnores : f.noConfigIgnores = g.noConfigIgnores := last_unique switched_unique hf.noConfigIgnores hg.noConfigIgnores
  have e_noConfigDatabases : f.noConfigDatabases = g.noConfigDatabases := last_unique switched_unique hf.noConfigDatabases hg.noConfigDatabases
  have e_printVersion : f.printVersion = g.printVersion := last_unique switched_unique hf.printVersion hg.printVersion
  have e_listEcosystems : f.listEcosystems = g.listEcosystems := last_unique switched_unique hf.listEcosystems hg.listEcosystems
  have e_listPackages : f.listPackages = g.listPackages := last_unique switched_unique hf.listPackages hg.listPackages
  have e_json : f.json = g.json := last_unique switched_unique hf.json hg.json
  have e_useDatabases : f.useDatabases = g.useDatabases := last_unique switched_unique hf.useDatabases hg.useDatabases
  have e_useAPI : f.useAPI = g.useAPI := last_unique switched_unique hf.useAPI hg.useAPI
  have e_batchSize : f.batchSize = g.batchSize := last_unique (fun o x y ⟨v, h1, h2⟩ ⟨w, h3, h4⟩ => by
    rw [h1] at h3; cases h3; rw [h2] at h4; exact Option.some.inj h4) hf.batchSize hg.batchSize
  have e_globalIgnores : f.globalIgnores = g.globalIgnores := hf.globalIgnores.trans hg.globalIgnores.symm
  have e_args : f.args = g.args := hf.args.trans hg.args.symm
  cases f
  cases g
  simp only at e_offline e_parseAs e_configPath e_noConfig e_updateConfigIgnores e_noConfigIgnores e_noConfigDatabases e_printVersion e_listEcosystems e_listPackages e_json e_useDatabases e_useAPI e_batchSize e_globalIgnores e_args
  simp only [*]

theorem parse_help (atoi : Str → Option Int) (args : List Str) (f : Flags) (h : parseArgs atoi f args = .error .help) :
    ∃ (opts : List Opt) (s : Str) (more : List Str), (∀ o ∈ opts, o.Valid atoi) ∧ args = opts.flatMap Opt.words ++ s :: more ∧ AsksHelp s := by
  induction hn : args.length using Nat.strongRecOn generalizing args f with
  | ind n ih =>
    cases args with
    | nil => cases h
    | cons s rest =>
      rw [parseArgs_cons] at h
      split at h
      · cases h
      · rename_i h1
        split at h
        · cases h
        · split at h
          · cases h
          · rename_i h2 h3
            have hs : ∃ dash, (dash = g!"-" ∨ dash = g!"--") ∧ s = dash ++ body s := by
              have : OptionLike s := by
                rw [optionLike_iff, Classical.not_not] at h1
                exact h1
              obtain ⟨c, r, rfl⟩ := this
              by_cases hc : c = '-'
              · subst hc
                exact ⟨g!"--", .inr rfl, by simp [body, hasPrefix, List.isPrefixOf]⟩
              · exact ⟨g!"-", .inl rfl, by simp [body, hasPrefix, List.isPrefixOf, Ne.symm hc]⟩
            obtain ⟨dash, hd, hs⟩ := hs
            generalize body s = b at hs h h3
            have key : ∀ (o : Opt) (more : List Str) (g : Flags), o.Valid atoi → s :: rest = o.words ++ more → o.words ≠ [] →
                parseArgs atoi g more = .error .help → ∃ (opts : List Opt) (s' : Str) (more : List Str), (∀ o ∈ opts, o.Valid atoi) ∧
                  s :: rest = opts.flatMap Opt.words ++ s' :: more ∧ AsksHelp s' := by
              intro o more g ho he hne hg
              have hlt : more.length < n := by
                rw [← hn, he, List.length_append]
                have := List.length_pos_iff.2 hne
                omega
              obtain ⟨opts, s', more', h1, h2, h3⟩ := ih more.length hlt more g hg rfl
              refine ⟨o :: opts, s', more', by simpa [ho] using h1, ?_, h3⟩
              rw [List.flatMap_cons, List.append_assoc, he, h2]
            have hnv : splitEquals b = (b, none) ∨ ∃ n v, splitEquals b = (n, some v) ∧ b = n ++ g!"=" ++ v := by
              cases b with
              | nil => exact .inl rfl
              | cons c r =>
                rw [splitEquals_cons]
                cases hcut : cut? g!"=" r with
                | none => exact .inl rfl
                | some ab =>
                  obtain ⟨a, b⟩ := ab
                  exact .inr ⟨c :: a, b, rfl, by rw [cut?_some hcut]; simp⟩
            have hnv : ∃ nm val, splitEquals b = (nm, val) ∧ s = dash ++ nm ++ (match val with | none => [] | some v => '=' :: v) := by
              rcases hnv with h' | ⟨nm, v, h', hb⟩
              · exact ⟨b, none, h', by simpa using hs⟩
              · exact ⟨nm, some v, h', by rw [hs, hb]; simp⟩
            obtain ⟨nm, val, hsp, hs⟩ := hnv
            rw [hsp] at h
            unfold readOption at h
            dsimp only at h
            cases hbl : boolFlags.lookup nm with
            | some set =>
              rw [hbl] at h
              dsimp only at h
              cases hpb : parseBool (val.getD g!"true") with
              | none => rw [hpb] at h; cases h
              | some b =>
                rw [hpb] at h
                refine key ⟨dash, nm, val, false⟩ rest (set b f)
                    ⟨hd, .inl ⟨(bool_lookup _).1 ⟨set, hbl⟩, rfl, b, (switched_iff _ b).1 hpb⟩⟩ ?_ ?_ h
                · rw [hs]; cases val <;> simp [Opt.words]
                · cases val <;> simp [Opt.words]
            | none =>
              rw [hbl] at h
              dsimp only at h
              cases hvl : (valueFlags atoi).lookup nm with
              | none =>
                rw [hvl] at h
                dsimp only at h
                split at h
                · rename_i hh
                  refine ⟨[], s, rest, by simp, rfl, dash, nm, _, hd, by simpa using hh, hs, ?_⟩
                  cases val <;> simp
                · cases h
              | some set =>
                have hbatch : ∀ v g, set v f = some g → nm = g!"batch-size" → ∃ n, atoi v = some n := by
                  intro v g hset hbs
                  rw [hbs] at hvl
                  cases hvl
                  cases ha : atoi v with
                  | none => exact absurd hset (by show (atoi v).map _ ≠ _; rw [ha]; simp)
                  | some n => exact ⟨n, rfl⟩
                rw [hvl] at h
                dsimp only at h
                cases val with
                | some v =>
                  dsimp only at h
                  cases hset : set v f with
                  | none => rw [hset] at h; cases h
                  | some g =>
                    rw [hset] at h
                    exact key ⟨dash, nm, some v, false⟩ rest g ⟨hd, .inr ⟨(value_lookup atoi _).1 ⟨set, hvl⟩, v, rfl, hbatch v g hset⟩⟩
                      (by rw [hs]; simp [Opt.words]) (by simp [Opt.words]) h
                | none =>
                  dsimp only at h
                  cases rest with
                  | nil => cases h
                  | cons v rest =>
                    dsimp only at h
                    cases hset : set v f with
                    | none => rw [hset] at h; cases h
                    | some g =>
                      rw [hset] at h
                      exact key ⟨dash, nm, some v, true⟩ rest g ⟨hd, .inr ⟨(value_lookup atoi _).1 ⟨set, hvl⟩, v, rfl, hbatch v g hset⟩⟩
                        (by rw [hs]; simp [Opt.words]) (by simp [Opt.words]) h

end Osv.Cli
