import Verif.Model.ConfigYaml
import Verif.Spec.ConfigYaml
import Verif.Lemmas.YamlAccept
/-!
# The text of a written config is a YAML document
-/
namespace Osv.YamlScan
open Osv Spec

/-! ### Strings -/

theorem yamlDigit_of {n : Nat} (h : n < 16) : HexDigit (yamlDigit n) n := by
  have : ∀ n < 16, (g!"0123456789abcdef")[n]? = some (yamlDigit n) := by decide
  exact .inl (this n h)

theorem yamlHex_of {n : Nat} (h : n < 0x110000) : TomlHex (yamlHex n) n := by
  refine ⟨[n / 0x10000000 % 16, n / 0x1000000 % 16, n / 0x100000 % 16, n / 0x10000 % 16, n / 0x1000 % 16, n / 0x100 % 16,
    n / 0x10 % 16, n % 16], ?_, ?_⟩
  · have d : ∀ m, HexDigit (yamlDigit (m % 16)) (m % 16) := fun m => yamlDigit_of (Nat.mod_lt _ (by decide))
    exact .cons (d _) (.cons (d _) (.cons (d _) (.cons (d _) (.cons (d _) (.cons (d _) (.cons (d _) (.cons (d _) .nil)))))))
  · simp only [List.foldl_cons, List.foldl_nil]
    omega

theorem char_scalar (c : Char) : c.toNat < 0x110000 ∧ TomlScalar c.toNat := by
  have h := c.valid
  have : c.toNat = c.val.toNat := rfl
  unfold TomlScalar
  unfold UInt32.isValidChar Nat.isValidChar at h
  rw [this]
  omega

theorem double_quoted (s : Str) : YmlDouble s (s.flatMap yamlEscaped) := by
  induction s with
  | nil => exact .nil
  | cons c s ih =>
    rw [List.flatMap_cons]
    unfold yamlEscaped
    split
    · rename_i h
      refine .escape (.short ?_) ih
      rcases h with rfl | rfl <;> decide
    · rename_i h
      simp only [not_or] at h
      split
      · exact .char h.1 h.2 ih
      · have := YmlEscape.digits (e := 'U') (k := 8) (by decide) rfl (yamlHex_of (char_scalar c).1) (char_scalar c).2
        rw [Char.ofNat_toNat] at this
        exact .escape this ih

theorem quoted_style : YmlStyle yamlQuoted := by
  intro s
  refine ⟨.double (double_quoted s), ?_⟩
  have hd : ∀ n < 16, okChar (yamlDigit n) = true := by decide
  intro c hc
  rw [← okChar_iff]
  unfold yamlQuoted at hc
  rcases List.mem_cons.1 hc with rfl | hc
  · decide
  · rcases List.mem_append.1 hc with hc | hc
    · obtain ⟨x, _, hx⟩ := List.mem_flatMap.1 hc
      unfold yamlEscaped at hx
      split at hx
      · rename_i h
        rcases List.mem_cons.1 hx with rfl | hx
        · decide
        · rw [List.mem_singleton] at hx
          subst hx
          rcases h with rfl | rfl <;> decide
      · split at hx
        · rename_i h
          rw [List.mem_singleton] at hx
          subst hx
          exact h
        · rcases List.mem_cons.1 hx with rfl | hx
          · decide
          · rcases List.mem_cons.1 hx with rfl | hx
            · decide
            · have d : ∀ m, okChar (yamlDigit (m % 16)) = true := fun m => hd _ (Nat.mod_lt _ (by decide))
              simp only [yamlHex, List.mem_cons, List.not_mem_nil, or_false] at hx
              rcases hx with rfl | rfl | rfl | rfl | rfl | rfl | rfl | rfl <;> exact d _
    · rw [List.mem_singleton] at hc
      subst hc
      decide

theorem styled_style (plain : Str → Bool) : YmlStyle (yamlStyled plain) := by
  intro s
  unfold yamlStyled
  split
  · rename_i h
    rw [Bool.and_eq_true] at h
    have h2 := h.2
    unfold yamlPlainFits at h2
    split at h2
    · rename_i v hv
      simp only [Bool.and_eq_true, decide_eq_true_eq] at h2
      obtain ⟨t, e, ht⟩ := scalar_inv hv
      rw [List.append_nil] at e
      subst e
      obtain ⟨⟨⟨h1, _⟩, _⟩, rfl⟩ := h2
      exact ⟨ht, allOk_iff.1 h1⟩
    · cases h2
  · exact quoted_style s

/-! ### Lines -/

/-- Lines that end with line breaks. -/
theorem lines_each {ls : List Str} {ts : List (List Tok)} (h : Each YmlFullLine ls ts) :
    YmlLines (ls.flatMap (· ++ ['\n'])) ts.flatten := by
  induction h with
  | nil => exact .last ⟨.blank (by simp [YmlSpaces]), by simp, by decide, by decide⟩
  | cons h _ ih =>
    rw [List.flatMap_cons, List.flatten_cons, List.append_assoc]
    exact .line h ih

theorem each_append {α β : Type} {R : α → β → Prop} {l l' : List α} {m m' : List β} (h : Each R l m) (h' : Each R l' m') :
    Each R (l ++ l') (m ++ m') := by
  induction h with
  | nil => exact h'
  | cons h _ ih => exact .cons h ih

theorem each_map {α β γ : Type} {R : β → γ → Prop} (f : α → β) (g : α → γ) (l : List α) (h : ∀ a ∈ l, R (f a) (g a)) :
    Each R (l.map f) (l.map g) := by
  induction l with
  | nil => exact .nil
  | cons a l ih => exact .cons (h a (by simp)) (ih fun a ha => h a (List.mem_cons_of_mem _ ha))

theorem each_flatMap {α β γ : Type} {R : β → γ → Prop} (f : α → List β) (g : α → List γ) (l : List α)
    (h : ∀ a ∈ l, Each R (f a) (g a)) : Each R (l.flatMap f) (l.flatMap g) := by
  induction l with
  | nil => exact .nil
  | cons a l ih => exact each_append (h a (by simp)) (ih fun a ha => h a (List.mem_cons_of_mem _ ha))

/-- A word without quotes. -/
theorem word_key {w : Str} (h : scalar false w = some (.scalar w false, [])) (hl : w.length ≤ 1024) (hm : w ≠ g!"<<") :
    YmlKey false w (.scalar w false) := by
  obtain ⟨t, e, ht⟩ := scalar_inv h
  rw [List.append_nil] at e
  subst e
  refine ⟨⟨w, [], ht, by simp [YmlSpaces], by simp⟩, hl, fun b e => hm ?_⟩
  cases e
  rfl

/-- The keys of a config. -/
def configKeys : List Str := [g!"ignore", g!"extra-databases", g!"url", g!"name", g!"type", g!"working-directory"]

theorem config_key {w : Str} (h : w ∈ configKeys) : YmlKey false w (.scalar w false) ∧ (∀ c ∈ w, YmlChar c) ∧
    ¬ g!"---" <+: w ∧ ¬ g!"..." <+: w := by
  have h1 : scalar false w = some (.scalar w false, []) := by
    simp only [configKeys, List.mem_cons, List.not_mem_nil, or_false] at h
    rcases h with rfl | rfl | rfl | rfl | rfl | rfl <;> rfl
  have h2 : ∀ w ∈ configKeys, w.length ≤ 1024 ∧ w ≠ g!"<<" ∧ w.all okChar = true ∧ docMark w = false := by decide
  obtain ⟨a, b, c, d⟩ := h2 w h
  exact ⟨word_key h1 a b, allOk_iff.1 c, docMark_iff.1 d⟩

theorem tail_nil : YmlTail [] := ⟨[], [], by simp [YmlSpaces], rfl, .inl rfl⟩

theorem spaces_of {b : Str} (h : b.all (· == ' ') = true) : YmlSpaces b := by
  intro c hc
  have := List.all_eq_true.1 h c hc
  simpa using this

theorem chars_append {a b : Str} (ha : ∀ c ∈ a, YmlChar c) (hb : ∀ c ∈ b, YmlChar c) : ∀ c ∈ a ++ b, YmlChar c := by
  intro c hc
  rcases List.mem_append.1 hc with h | h
  · exact ha c h
  · exact hb c h

theorem no_marker {c : Char} {r : Str} (h1 : c ≠ '-') (h2 : c ≠ '.') : ¬ g!"---" <+: c :: r ∧ ¬ g!"..." <+: c :: r := by
  constructor
  · rintro ⟨t, e⟩
    cases e
    exact h1 rfl
  · rintro ⟨t, e⟩
    cases e
    exact h2 rfl

/-- `key:` in the first column. -/
theorem line_key {w : Str} (h : w ∈ [g!"ignore", g!"extra-databases"]) : YmlFullLine (w ++ g!":") [⟨0, some (.scalar w false), none⟩] := by
  have hw : w ∈ configKeys := by
    simp only [configKeys, List.mem_cons, List.not_mem_nil, or_false] at h ⊢
    rcases h with h | h <;> simp [h]
  obtain ⟨hk, hc, _, _⟩ := config_key hw
  refine ⟨.body (b := []) (by simp [YmlSpaces]) (.key hk tail_nil), chars_append hc (allOk_iff.1 (by decide)), ?_⟩
  simp only [List.mem_cons, List.not_mem_nil, or_false] at h
  rcases h with rfl | rfl <;> exact no_marker (by decide) (by decide)

theorem line_empty : YmlFullLine g!"ignore: []" [⟨0, some (.scalar g!"ignore" false), some (.seq [])⟩] := by
  obtain ⟨hk, _⟩ := config_key (w := g!"ignore") (by decide)
  refine ⟨?_, allOk_iff.1 (by decide), no_marker (by decide) (by decide)⟩
  exact .body (b := []) (by simp [YmlSpaces]) (.keyValue (b := g!" ") (v := g!"[]") hk (by decide) (spaces_of (by decide))
    (.emptySeq (b := []) (by simp [YmlSpaces])) tail_nil)

theorem line_item {style : Str → Str} (hs : YmlStyle style) (s : Str) : YmlFullLine (g!"  - " ++ style s) [⟨2, none, some (.scalar s false)⟩] := by
  refine ⟨?_, chars_append (allOk_iff.1 (by decide)) (hs s).2, no_marker (by decide) (by decide)⟩
  have := YmlBody.dashValue (i := 2) (b := g!" ") (r := []) (by decide) (spaces_of (by decide)) (.scalar (hs s).1) tail_nil
  rw [List.append_nil] at this
  exact .body (b := g!"  ") (spaces_of (by decide)) this

theorem line_url {style : Str → Str} (hs : YmlStyle style) (s : Str) :
    YmlFullLine (g!"  - url: " ++ style s) [⟨2, none, none⟩, ⟨4, some (.scalar g!"url" false), some (.scalar s false)⟩] := by
  refine ⟨?_, chars_append (allOk_iff.1 (by decide)) (hs s).2, no_marker (by decide) (by decide)⟩
  obtain ⟨hk, _⟩ := config_key (w := g!"url") (by decide)
  have := YmlBody.keyValue (i := 4) (b := g!" ") (r := []) hk (by decide) (spaces_of (by decide)) (.scalar (hs s).1) tail_nil
  rw [List.append_nil] at this
  exact .body (b := g!"  ") (spaces_of (by decide)) (.dashMore (b := g!" ") (by decide) (spaces_of (by decide)) this)

theorem line_opt {style : Str → Str} (hs : YmlStyle style) {w : Str} (h : w ∈ configKeys) (s : Str) :
    YmlFullLine (g!"    " ++ (w ++ (g!": " ++ style s))) [⟨4, some (.scalar w false), some (.scalar s false)⟩] := by
  obtain ⟨hk, hc, _⟩ := config_key h
  refine ⟨?_, chars_append (allOk_iff.1 (by decide)) (chars_append hc (chars_append (allOk_iff.1 (by decide)) (hs s).2)),
    no_marker (by decide) (by decide)⟩
  have := YmlBody.keyValue (i := 4) (b := g!" ") (r := []) hk (by decide) (spaces_of (by decide)) (.scalar (hs s).1) tail_nil
  rw [List.append_nil] at this
  exact .body (b := g!"    ") (spaces_of (by decide)) this

/-! ### What the lines say -/

/-- What the line of an optional field says. -/
def optTok (key value : Str) : List (List Tok) := if value = [] then [] else [[⟨4, some (.scalar key false), some (.scalar value false)⟩]]

def dbToks (d : RawDB) : List (List Tok) :=
  [⟨2, none, none⟩, ⟨4, some (.scalar g!"url" false), some (.scalar d.url false)⟩] ::
    (optTok g!"name" d.name ++ (optTok g!"type" d.type ++ optTok g!"working-directory" d.workingDirectory))

def ignoreToks (ignores : List Str) : List (List Tok) :=
  if ignores = [] then [[⟨0, some (.scalar g!"ignore" false), some (.seq [])⟩]]
  else [⟨0, some (.scalar g!"ignore" false), none⟩] :: ignores.map fun s => [⟨2, none, some (.scalar s false)⟩]

def configToks (c : RawConfig) : List (List Tok) :=
  ignoreToks c.ignore ++
    (if c.databases = [] then [] else [⟨0, some (.scalar g!"extra-databases" false), none⟩] :: c.databases.flatMap dbToks)

theorem opt_each {style : Str → Str} (hs : YmlStyle style) {w : Str} (h : w ∈ configKeys) (s : Str) :
    Each YmlFullLine (optLine style w s) (optTok w s) := by
  unfold optLine optTok
  split
  · exact .nil
  · exact .cons (line_opt hs h s) .nil

theorem db_each {style : Str → Str} (hs : YmlStyle style) (d : RawDB) : Each YmlFullLine (dbLines style d) (dbToks d) :=
  .cons (line_url hs d.url) (each_append (opt_each hs (by decide) _) (each_append (opt_each hs (by decide) _) (opt_each hs (by decide) _)))

theorem ignore_each {style : Str → Str} (hs : YmlStyle style) (l : List Str) : Each YmlFullLine (ignoreLines style l) (ignoreToks l) := by
  unfold ignoreLines ignoreToks
  split
  · exact .cons line_empty .nil
  · exact .cons (line_key (w := g!"ignore") (by decide)) (each_map _ _ _ fun s _ => line_item hs s)

theorem config_each {style : Str → Str} (hs : YmlStyle style) (c : RawConfig) : Each YmlFullLine (configLines style c) (configToks c) := by
  unfold configLines configToks
  refine each_append (ignore_each hs _) ?_
  split
  · exact .nil
  · exact .cons (line_key (w := g!"extra-databases") (by decide)) (each_flatMap _ _ _ fun d _ => db_each hs d)

/-! ### The tree -/

theorem block_items (l : List Str) : YmlBlock 2 false ((l.map fun s => [(⟨2, none, some (.scalar s false)⟩ : Tok)]).flatten)
    ((l.map yamlStr).map fun v => (none, v)) := by
  induction l with
  | nil => exact .nil
  | cons s l ih => exact .inline rfl ih

theorem block_opt {k s : Str} {ts : List Tok} {es : List (Option YNode × YNode)} (h : YmlBlock 4 true ts es) :
    YmlBlock 4 true ((optTok k s).flatten ++ ts) ((yamlOpt k s).map (fun e => (some e.1, e.2)) ++ es) := by
  unfold optTok yamlOpt
  by_cases h0 : s = []
  · rw [if_pos h0, if_pos h0]
    exact h
  · rw [if_neg h0, if_neg h0]
    exact .inline rfl h

/-- The fields of a database, behind the dash. -/
def dbRest (d : RawDB) : List Tok :=
  ⟨4, some (.scalar g!"url" false), some (.scalar d.url false)⟩ ::
    ((optTok g!"name" d.name).flatten ++ ((optTok g!"type" d.type).flatten ++ ((optTok g!"working-directory" d.workingDirectory).flatten ++ [])))

theorem dbToks_flatten (d : RawDB) : (dbToks d).flatten = ⟨2, none, none⟩ :: dbRest d := by
  simp [dbToks, dbRest]

theorem block_db (d : RawDB) : ∃ es, YmlBlock 4 true (dbRest d) es ∧ YmlTree true es (encodeRawDB d) := by
  refine ⟨_, .inline rfl (block_opt (block_opt (block_opt .nil))), ?_⟩
  have := YmlTree.map ((yamlStr g!"url", yamlStr d.url) :: (yamlOpt g!"name" d.name ++ (yamlOpt g!"type" d.type ++
    yamlOpt g!"working-directory" d.workingDirectory)))
  simp only [List.map_cons, List.map_append] at this
  rw [List.append_nil]
  exact this

theorem block_dbs (l : List RawDB) : YmlBlock 2 false ((l.flatMap dbToks).flatten) ((l.map encodeRawDB).map fun v => (none, v)) := by
  induction l with
  | nil => exact .nil
  | cons d l ih =>
    obtain ⟨es, hb, ht⟩ := block_db d
    rw [List.flatMap_cons, List.flatten_append, dbToks_flatten, List.cons_append]
    exact .nested rfl (.inl (by decide)) (by simp [dbRest]) hb ht ih

theorem block_tail (l : List RawDB) : YmlBlock 0 true
    ((if l = [] then [] else [(⟨0, some (.scalar g!"extra-databases" false), none⟩ : Tok)] :: l.flatMap dbToks).flatten)
    ((if l = [] then [] else [(yamlStr g!"extra-databases", YNode.seq (l.map encodeRawDB))]).map fun e => (some e.1, e.2)) := by
  by_cases h : l = []
  · rw [if_pos h, if_pos h]
    exact .nil
  · rw [if_neg h, if_neg h]
    have hn : (l.flatMap dbToks).flatten ≠ [] := by
      cases l with
      | nil => exact absurd rfl h
      | cons d l =>
        rw [List.flatMap_cons, List.flatten_append, dbToks_flatten]
        simp
    have := YmlBlock.nested (i := 0) (m := true) (k := some (.scalar g!"extra-databases" false)) rfl (.inl (by decide)) hn (block_dbs l)
      (.seq _) .nil
    rw [List.append_nil] at this
    exact this

theorem block_config (c : RawConfig) : ∃ es, YmlBlock 0 true (configToks c).flatten es ∧ YmlTree true es (encodeConfig c) := by
  refine ⟨((yamlStr g!"ignore", YNode.seq (c.ignore.map yamlStr)) ::
    (if c.databases = [] then [] else [(yamlStr g!"extra-databases", .seq (c.databases.map encodeRawDB))])).map fun e => (some e.1, e.2),
    ?_, .map _⟩
  unfold configToks ignoreToks
  rw [List.flatten_append, List.map_cons]
  by_cases h : c.ignore = []
  · rw [if_pos h, h]
    exact .inline rfl (block_tail _)
  · rw [if_neg h]
    refine .nested (i := 0) (m := true) rfl (.inl (by decide)) ?_ (block_items c.ignore) (.seq _) (block_tail _)
    cases hc : c.ignore with
    | nil => exact absurd hc h
    | cons s l => simp

theorem doc_config {style : Str → Str} (hs : YmlStyle style) (c : RawConfig) : YmlDoc (writeConfig style c) (some (encodeConfig c)) := by
  obtain ⟨es, hb, ht⟩ := block_config c
  refine .some (lines_each (config_each hs c)) ?_ hb ht
  unfold configToks ignoreToks
  split <;> simp

end Osv.YamlScan
