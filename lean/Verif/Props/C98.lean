import Verif.Props.C76
import Verif.Lemmas.TomlWrite
import Verif.Lemmas.TomlInt
/-!
# C98: TOML files from their text

Every text of a tree is read as that tree, whatever way of writing it is chosen: comments and blank lines, kinds of strings, escapes,
kinds of numbers, keys with dots, tables in braces or with headers, arrays of tables. So the packages of the five lockfiles in TOML are
those that the text says.
-/
namespace Osv
open Str Spec

/-- A text of a tree is read as the tree. -/
theorem C98_read (n : TNode) (text : Str) (h : TomlDoc n text) : TomlText.read text = some n := TomlText.read_of h

/-- A text stands for one tree only. -/
theorem C98_unique (n m : TNode) (text : Str) (hn : TomlDoc n text) (hm : TomlDoc m text) : n = m := by
  have := C98_read n text hn
  rw [C98_read m text hm] at this
  exact (Option.some.inj this).symm

/-- The words that are read as integers are the texts of integers. -/
theorem C98_integers (i : Int) (t : Str) : TomlText.bare t = some (.int i) ↔ TomlInt i t := TomlText.bare_int

/-- The trees that have a text are the tables in which no table has a key twice and integers have 64 bits. -/
theorem C98_writable (n : TNode) : (∃ text, TomlDoc n text) ↔ (∃ es, n = .table es) ∧ TomlTree n := by
  constructor
  · rintro ⟨t, h⟩
    refine ⟨?_, TomlText.doc_tree h⟩
    obtain ⟨es, _, h, _⟩ := h
    exact ⟨es, h⟩
  · rintro ⟨⟨es, rfl⟩, h⟩
    exact TomlText.doc_exists h

/-- Cargo.lock: accepted exactly if the document has the shape, and then the packages are those of the document. -/
theorem C98_cargo (n : TNode) (text : Str) (h : TomlDoc n text) :
    ((parseCargoLock (cargoDecode TomlText.read) (some text)).2 = false ↔ CargoShape n) ∧
    (TPlain n → ∀ ps, parseCargoLock (cargoDecode TomlText.read) (some text) = (ps, false) →
      ∃ items, TItems n g!"package" items ∧ Entries CargoSays items ps) :=
  ⟨C76_cargo_accepted _ _ n (C98_read n text h), fun hp => C76_cargo_read _ _ n (C98_read n text h) hp⟩

theorem C98_poetry (n : TNode) (text : Str) (h : TomlDoc n text) :
    ((parsePoetryLock (poetryDecode TomlText.read) (some text)).2 = false ↔ PoetryShape n) ∧
    (TPlain n → ∀ ps, parsePoetryLock (poetryDecode TomlText.read) (some text) = (ps, false) →
      ∃ items, TItems n g!"package" items ∧ Entries PoetrySays items ps) :=
  ⟨C76_poetry_accepted _ _ n (C98_read n text h), fun hp => C76_poetry_read _ _ n (C98_read n text h) hp⟩

theorem C98_pdm (n : TNode) (text : Str) (h : TomlDoc n text) :
    ((parsePdmLock (pdmDecode TomlText.read) (some text)).2 = false ↔ PdmShape n) ∧
    (TPlain n → ∀ ps, parsePdmLock (pdmDecode TomlText.read) (some text) = (ps, false) →
      ∃ items, TItems n g!"package" items ∧ Entries PdmSays items ps) :=
  ⟨C76_pdm_accepted _ _ n (C98_read n text h), fun hp => C76_pdm_read _ _ n (C98_read n text h) hp⟩

theorem C98_uv (optional : TNode → Option Unit) (n : TNode) (text : Str) (h : TomlDoc n text) :
    ((parseUvLock (uvDecode optional TomlText.read) (some text)).2 = false ↔ UvShape (fun v => (optional v).isSome) n) ∧
    (TPlain n → ∀ ps, parseUvLock (uvDecode optional TomlText.read) (some text) = (ps, false) →
      ∃ items, TItems n g!"package" items ∧ Entries UvSays items ps) :=
  ⟨C76_uv_accepted _ _ _ n (C98_read n text h), fun hp => C76_uv_read _ _ _ n (C98_read n text h) hp⟩

theorem C98_pylock (n : TNode) (text : Str) (h : TomlDoc n text) :
    ((parsePylock (pylockDecode TomlText.read) (some text)).2 = false ↔ PylockShape n) ∧
    (TPlain n → ∀ ps, parsePylock (pylockDecode TomlText.read) (some text) = (ps, false) →
      ∃ items, TItems n g!"packages" items ∧ Entries PylockSays items ps) :=
  ⟨C76_pylock_accepted _ _ n (C98_read n text h), fun hp => C76_pylock_read _ _ n (C98_read n text h) hp⟩

/-! ### A document -/

def C98_sample_text : Str := g!"# lock\nversion = 3\n\n[[package]]\nname = \"a\\u0062\"\ndeps.'x' = [ 0x1F, 1e3, # c\n]\n[package.source]\ngit = '''\nu#c'''"

def C98_sample_tree : TNode := .table [(g!"version", .int 3), (g!"package", .arr [.table [(g!"name", .str g!"ab"),
  (g!"deps", .table [(g!"x", .arr [.int 31, .other])]), (g!"source", .table [(g!"git", .str g!"u#c")])]])]

namespace TomlText

private theorem blank1 : TomlBlank g!" " := by intro c h; simp at h; exact .inl h

private theorem chars {t : Str} (h : t.all (fun c => decide (c = '\t' ∨ (0x20 ≤ c.toNat ∧ c.toNat ≠ 0x7f))) = true) :
    ∀ c ∈ t, TomlChar c := fun c hc => by simpa [TomlChar] using List.all_eq_true.1 h c hc

private theorem bareWord {t : Str} (hne : t ≠ []) (h : t.all (fun c => decide (('a' ≤ c ∧ c ≤ 'z') ∨ ('A' ≤ c ∧ c ≤ 'Z') ∨
    ('0' ≤ c ∧ c ≤ '9') ∨ c = '_' ∨ c = '-')) = true) : TomlWord t t :=
  .bare hne fun c hc => by simpa [TomlWordChar] using List.all_eq_true.1 h c hc

private theorem newlineEnd (u : Str) : TomlEnd u ('\n' :: u) := ⟨[], [], blank_nil, .inl rfl, .inl ⟨g!"\n", .inl rfl, rfl⟩⟩

private theorem digit1 {c : Char} {v : Nat} (h : (g!"0123456789abcdef")[v]? = some c) (base : Nat) (hv : v < base) : TomlDigit base c :=
  ⟨v, .inl h, hv⟩

private theorem items_sample : TomlItems [.int 31, .other] g!" 0x1F, 1e3, # c\n]" :=
  TomlItems.cons (g := g!" ") (t := g!"0x1F") (g' := []) (u := g!" 1e3, # c\n]") (.blank (.inl rfl) .nil)
    (.int ⟨.inr (.inr (.inr ⟨31, g!"1F", g!"1F", ('x', 16), by simp, rfl,
      .next (digit1 (v := 1) rfl 16 (by decide)) (.one ⟨15, .inr rfl, by decide⟩),
      ⟨[1, 15], .cons (.inl rfl) (.cons (.inr rfl) .nil), rfl⟩, rfl⟩)), by decide, by decide⟩) .nil
    (TomlItems.cons (g := g!" ") (t := g!"1e3") (g' := []) (u := g!" # c\n]") (.blank (.inl rfl) .nil)
      (.other (.inr (.inr (.inl ⟨[], g!"1e3", .inl rfl, rfl, .inr (.inr ⟨g!"1", g!"e3",
        ⟨1, .inr ⟨g!"1", .one (digit1 (v := 1) rfl 10 (by decide)), by decide, [1], .cons (.inl rfl) .nil, rfl⟩⟩, rfl,
        .inr (.inl ⟨'e', [], g!"3", g!"3", .inl rfl, .inl rfl, .one (digit1 (v := 3) rfl 10 (by decide)), rfl⟩)⟩)⟩)))) .nil
      (TomlItems.nil (g := g!" # c\n") (.blank (.inl rfl) (TomlGap.comment (t := g!" c") (n := g!"\n") (s := [])
        (chars (by decide)) (.inl rfl) .nil))))

private theorem stmts_sample : TomlStmts [.set [g!"version"] (.int 3), .item [g!"package"], .set [g!"name"] (.str g!"ab"),
    .set [g!"deps", g!"x"] (.arr [.int 31, .other]), .table [g!"package", g!"source"], .set [g!"git"] (.str g!"u#c")]
    C98_sample_text := by
  refine TomlStmts.empty (u := g!"version = 3\n\n[[package]]\nname = \"a\\u0062\"\ndeps.'x' = [ 0x1F, 1e3, # c\n]\n[package.source]\ngit = '''\nu#c'''")
    ⟨[], g!"# lock", blank_nil, .inr ⟨g!" lock", rfl, chars (by decide)⟩, .inl ⟨g!"\n", .inl rfl, rfl⟩⟩ (by decide) ?_
  refine TomlStmts.set (a := []) (t := g!"version") (b := g!" ") (c := g!" ") (w := g!"3") blank_nil (.one (bareWord (by decide) (by decide)))
    blank1 blank1 (.int ⟨.inl ⟨3, .inr ⟨g!"3", .one (digit1 (v := 3) rfl 10 (by decide)), by decide, [3], .cons (.inl rfl) .nil, rfl⟩, rfl⟩,
      by decide, by decide⟩) (newlineEnd _) ?_
  refine TomlStmts.empty (newlineEnd _) (by decide) ?_
  refine TomlStmts.item (a := []) (b := []) (t := g!"package") (c := []) blank_nil blank_nil (.one (bareWord (by decide) (by decide))) blank_nil
    (newlineEnd _) ?_
  refine TomlStmts.set (a := []) (t := g!"name") (b := g!" ") (c := g!" ") (w := g!"\"a\\u0062\"") blank_nil (.one (bareWord (by decide) (by decide)))
    blank1 blank1 (TomlValue.basic (raw := g!"a\\u0062") (.char (.inr ⟨by decide, by decide⟩) (by decide) (by decide)
      (TomlBasic.escape (e := g!"\\u0062") (raw := []) (TomlEscape.four (ds := g!"0062") (n := 0x62) rfl
        ⟨[0, 0, 6, 2], .cons (.inl rfl) (.cons (.inl rfl) (.cons (.inl rfl) (.cons (.inl rfl) .nil))), rfl⟩ (.inl (by decide))) .nil)))
    (newlineEnd _) ?_
  refine TomlStmts.set (a := []) (t := g!"deps.'x'") (b := g!" ") (c := g!" ") (w := g!"[ 0x1F, 1e3, # c\n]") blank_nil
    (TomlKey.dot (t := g!"deps") (b := []) (b' := []) (u := g!"'x'") (bareWord (by decide) (by decide)) blank_nil blank_nil
      (.one (TomlWord.literal (t := g!"x") (by intro c h; simp at h; subst h; exact ⟨.inr ⟨by decide, by decide⟩, by decide⟩))))
    blank1 blank1 (.arr items_sample) (newlineEnd _) ?_
  refine TomlStmts.table (a := []) (b := []) (t := g!"package.source") (c := []) blank_nil blank_nil
    (TomlKey.dot (t := g!"package") (b := []) (b' := []) (u := g!"source") (bareWord (by decide) (by decide)) blank_nil blank_nil
      (.one (bareWord (by decide) (by decide)))) blank_nil (newlineEnd _) ?_
  exact TomlStmts.set (a := []) (t := g!"git") (b := g!" ") (c := g!" ") (w := g!"'''\nu#c'''") (u := []) (s := []) blank_nil
    (.one (bareWord (by decide) (by decide))) blank1 blank1
    (TomlValue.rawLines (first := g!"\n") (t := g!"u#c") (raw := g!"u#c'''") (.inl (.inl rfl))
      (.char (.inr ⟨by decide, by decide⟩) (by decide) (.char (.inr ⟨by decide, by decide⟩) (by decide)
        (.char (.inr ⟨by decide, by decide⟩) (by decide) .close))))
    ⟨[], [], blank_nil, .inl rfl, .inr ⟨rfl, rfl⟩⟩ .nil

private theorem body_sample : TomlBody [] [(g!"version", .int 3), (g!"package", .arr [.table [(g!"name", .str g!"ab"),
    (g!"deps", .table [(g!"x", .arr [.int 31, .other])]), (g!"source", .table [(g!"git", .str g!"u#c")])]])]
    [.set [g!"version"] (.int 3), .item [g!"package"], .set [g!"name"] (.str g!"ab"),
      .set [g!"deps", g!"x"] (.arr [.int 31, .other]), .table [g!"package", g!"source"], .set [g!"git"] (.str g!"u#c")] := by
  refine TomlBody.mk (own := [(g!"version", .int 3)]) (by decide) (.value (by decide) .nil)
    (TomlSubs.list (by simp) (List.cons_ne_nil _ _) (s := [.item [g!"package"], .set [g!"name"] (.str g!"ab"), .set [g!"deps", g!"x"] (.arr [.int 31, .other]),
      .table [g!"package", g!"source"], .set [g!"git"] (.str g!"u#c")]) (s' := []) ?_ .nil)
  refine TomlElems.cons (s := [.set [g!"name"] (.str g!"ab"), .set [g!"deps", g!"x"] (.arr [.int 31, .other]),
      .table [g!"package", g!"source"], .set [g!"git"] (.str g!"u#c")]) (s' := []) (TomlBody.mk
    (own := [(g!"name", .str g!"ab"), (g!"deps", .table [(g!"x", .arr [.int 31, .other])])])
    (subs := [(g!"source", .table [(g!"git", .str g!"u#c")])]) (l := [([g!"name"], .str g!"ab"), ([g!"deps", g!"x"], .arr [.int 31, .other])])
    (by decide) (.value (by decide) (TomlPairs.dotted (l := [([g!"deps", g!"x"], .arr [.int 31, .other])]) (l' := []) (by decide) (by simp) (.value (by decide) .nil) .nil))
    (TomlSubs.table (s := [.set [g!"git"] (.str g!"u#c")]) (s' := []) (by decide) (TomlBody.mk (own := [(g!"git", .str g!"u#c")]) (subs := []) (by decide) (.value (by decide) .nil) .nil) .nil)) .nil

end TomlText

/-- The hypothesis is met by a document with most ways of writing. -/
theorem C98_sample : TomlDoc C98_sample_tree C98_sample_text := ⟨_, _, rfl, TomlText.body_sample, TomlText.stmts_sample⟩

example : parseUvLock (uvDecode (fun _ => some ()) TomlText.read) (some C98_sample_text) =
    ([⟨g!"ab", [], g!"c", g!"PyPI", g!"PyPI"⟩], false) := by decide +kernel

end Osv
