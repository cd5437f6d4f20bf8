import Verif.Lemmas.TomlFiles
import Verif.Props.C57
/-!
# C76: TOML files say what is read of them

For every document, as a tree of values: when it is refused, and that otherwise the packages reported are those at their places in the
document, in order. The second part is for documents in which no table has two keys that differ in upper and lower case only:
`C76_case_counterexample` shows that otherwise the iteration order of Go decides.
-/
namespace Osv
open Str Spec

namespace Toml

theorem bind_isSome {α β : Type} {o : Option α} {f : α → Option β} : (o.bind f).isSome ↔ ∃ a, o = some a ∧ (f a).isSome := by
  cases o <;> simp

theorem text_shape {n : TNode} {es : List (Str × TNode)} (h : n = .table es) (k : Str) :
    (get text [] es k).isSome ↔ ∀ v, TEntry n k v → TIsText v := by
  rw [h, ← get_isSome text_isSome]

theorem shape {α : Type} {d : TNode → Option α} {P : TNode → Prop} (hd : ∀ n, (d n).isSome ↔ P n) (zero : α) {n : TNode}
    {es : List (Str × TNode)} (h : n = .table es) (k : Str) : (get d zero es k).isSome ↔ ∀ v, TEntry n k v → P v := by
  rw [h, ← get_isSome hd]

theorem cargoPackage_isSome (n : TNode) : (tomlCargoPackage n).isSome ↔ TIsStruct [(g!"name", TIsText), (g!"version", TIsText)] n := by
  refine fields_isSome _ fun es h => ?_
  simp only [List.mem_cons, List.not_mem_nil, or_false, forall_eq_or_imp, forall_eq, ← text_shape h]
  simp only [Option.bind_eq_bind, bind_isSome, Option.isSome_some, and_true, exists_and_right, ← Option.isSome_iff_exists]

theorem cargo_isSome (n : TNode) : (tomlCargo n).isSome ↔ CargoShape n := by
  refine fields_isSome _ fun es h => ?_
  simp only [List.mem_cons, List.not_mem_nil, or_false, forall_eq_or_imp, forall_eq, ← shape int_isSome () h, ← shape (listOf_isSome cargoPackage_isSome) [] h]
  simp only [Option.bind_eq_bind, bind_isSome, exists_and_right, ← Option.isSome_iff_exists]

theorem poetrySource_isSome (n : TNode) : (tomlPoetrySource n).isSome ↔ TIsStruct [(g!"type", TIsText), (g!"resolved_reference", TIsText)] n := by
  refine fields_isSome _ fun es h => ?_
  simp only [List.mem_cons, List.not_mem_nil, or_false, forall_eq_or_imp, forall_eq, ← text_shape h]
  simp only [Option.bind_eq_bind, bind_isSome, exists_and_right, ← Option.isSome_iff_exists]

theorem poetryPackage_isSome (n : TNode) : (tomlPoetryPackage n).isSome ↔ TIsStruct [(g!"name", TIsText), (g!"version", TIsText), (g!"source", TIsStruct [(g!"type", TIsText), (g!"resolved_reference", TIsText)])] n := by
  refine fields_isSome _ fun es h => ?_
  simp only [List.mem_cons, List.not_mem_nil, or_false, forall_eq_or_imp, forall_eq, ← text_shape h, ← shape poetrySource_isSome [] h]
  simp only [Option.bind_eq_bind, bind_isSome, Option.isSome_some, and_true, exists_and_right, ← Option.isSome_iff_exists]

theorem poetry_isSome (n : TNode) : (tomlPoetry n).isSome ↔ PoetryShape n := by
  refine fields_isSome _ fun es h => ?_
  simp only [List.mem_cons, List.not_mem_nil, or_false, forall_eq_or_imp, forall_eq, ← shape int_isSome () h, ← shape (listOf_isSome poetryPackage_isSome) [] h]
  simp only [Option.bind_eq_bind, bind_isSome, exists_and_right, ← Option.isSome_iff_exists]

theorem pdmPackage_isSome (n : TNode) : (tomlPdmPackage n).isSome ↔ TIsStruct [(g!"name", TIsText), (g!"version", TIsText), (g!"groups", TIsListOf TIsText), (g!"revision", TIsText)] n := by
  refine fields_isSome _ fun es h => ?_
  simp only [List.mem_cons, List.not_mem_nil, or_false, forall_eq_or_imp, forall_eq, ← text_shape h, ← shape (listOf_isSome text_isSome) [] h]
  simp only [Option.bind_eq_bind, bind_isSome, Option.isSome_some, and_true, exists_and_right, ← Option.isSome_iff_exists]

theorem pdm_isSome (n : TNode) : (tomlPdm n).isSome ↔ PdmShape n := by
  refine fields_isSome _ fun es h => ?_
  simp only [List.mem_cons, List.not_mem_nil, or_false, forall_eq_or_imp, forall_eq, ← text_shape h, ← shape (listOf_isSome pdmPackage_isSome) [] h]
  simp only [Option.bind_eq_bind, bind_isSome, exists_and_right, ← Option.isSome_iff_exists]

theorem uvSource_isSome (n : TNode) : (tomlUvSource n).isSome ↔ TIsStruct [(g!"virtual", TIsText), (g!"git", TIsText)] n := by
  refine fields_isSome _ fun es h => ?_
  simp only [List.mem_cons, List.not_mem_nil, or_false, forall_eq_or_imp, forall_eq, ← text_shape h]
  simp only [Option.bind_eq_bind, bind_isSome, Option.isSome_some, and_true, exists_and_right, ← Option.isSome_iff_exists]

theorem uvPackage_isSome (optional : TNode → Option Unit) (n : TNode) : (tomlUvPackage optional n).isSome ↔ TIsStruct [(g!"name", TIsText), (g!"version", TIsText), (g!"source", TIsStruct [(g!"virtual", TIsText), (g!"git", TIsText)]), (g!"optional-dependencies", fun v => (optional v).isSome)] n := by
  refine fields_isSome _ fun es h => ?_
  simp only [List.mem_cons, List.not_mem_nil, or_false, forall_eq_or_imp, forall_eq, ← text_shape h, ← shape uvSource_isSome ([], []) h, ← shape (d := optional) (P := fun v => (optional v).isSome) (fun _ => Iff.rfl) () h]
  simp only [Option.bind_eq_bind, bind_isSome, Option.isSome_some, and_true, exists_and_right, ← Option.isSome_iff_exists]

theorem uv_isSome (optional : TNode → Option Unit) (n : TNode) : (tomlUv optional n).isSome ↔ UvShape (fun v => (optional v).isSome) n := by
  refine fields_isSome _ fun es h => ?_
  simp only [List.mem_cons, List.not_mem_nil, or_false, forall_eq_or_imp, forall_eq, ← shape int_isSome () h, ← shape (listOf_isSome (uvPackage_isSome optional)) [] h]
  simp only [Option.bind_eq_bind, bind_isSome, exists_and_right, ← Option.isSome_iff_exists]

theorem pylockVCS_isSome (n : TNode) : (tomlPylockVCS n).isSome ↔ TIsStruct [(g!"type", TIsText), (g!"commit-id", TIsText)] n := by
  refine fields_isSome _ fun es h => ?_
  simp only [List.mem_cons, List.not_mem_nil, or_false, forall_eq_or_imp, forall_eq, ← text_shape h]
  simp only [Option.bind_eq_bind, bind_isSome, exists_and_right, ← Option.isSome_iff_exists]

theorem pylockDirectory_isSome (n : TNode) : (tomlPylockDirectory n).isSome ↔ TIsStruct [(g!"path", TIsText)] n := by
  refine fields_isSome _ fun es h => ?_
  simp only [List.mem_cons, List.not_mem_nil, or_false, forall_eq, ← text_shape h]

theorem pylockPackage_isSome (n : TNode) : (tomlPylockPackage n).isSome ↔ TIsStruct [(g!"name", TIsText), (g!"version", TIsText), (g!"vcs", TIsStruct [(g!"type", TIsText), (g!"commit-id", TIsText)]), (g!"directory", TIsStruct [(g!"path", TIsText)])] n := by
  refine fields_isSome _ fun es h => ?_
  simp only [List.mem_cons, List.not_mem_nil, or_false, forall_eq_or_imp, forall_eq, ← text_shape h, ← shape pylockVCS_isSome [] h, ← shape pylockDirectory_isSome [] h]
  simp only [Option.bind_eq_bind, bind_isSome, Option.isSome_some, and_true, exists_and_right, ← Option.isSome_iff_exists]

theorem pylock_isSome (n : TNode) : (tomlPylock n).isSome ↔ PylockShape n := by
  refine fields_isSome _ fun es h => ?_
  simp only [List.mem_cons, List.not_mem_nil, or_false, forall_eq_or_imp, forall_eq, ← text_shape h, ← shape (listOf_isSome pylockPackage_isSome) [] h]
  simp only [Option.bind_eq_bind, bind_isSome, exists_and_right, ← Option.isSome_iff_exists]

theorem cargo_says {v : TNode} (hp : TPlain v) {x : CargoPackage} (h : tomlCargoPackage v = some x) (p : PackageDetails) :
    CargoEntry x p ↔ CargoSays v p := by
  unfold tomlCargoPackage at h
  simp only [Option.bind_eq_bind, Option.bind_eq_some_iff] at h
  obtain ⟨es, hf, a, h1, b, h2, e⟩ := h
  cases e
  cases fields_some hf
  have hn := plain_keys hp
  unfold CargoSays CargoEntry
  simp only [text_field hn h1, text_field hn h2, exists_and_left, exists_eq_left]

theorem poetry_says {v : TNode} (hp : TPlain v) {x : PoetryPackage} (h : tomlPoetryPackage v = some x) (p : PackageDetails) :
    PoetryEntry x p ↔ PoetrySays v p := by
  unfold tomlPoetryPackage at h
  simp only [Option.bind_eq_bind, Option.bind_eq_some_iff] at h
  obtain ⟨es, hf, a, h1, b, h2, c, h3, e⟩ := h
  cases e
  cases fields_some hf
  have hn := plain_keys hp
  have hc : ∀ t, TText (.table es) [g!"source", g!"resolved_reference"] t ↔ t = c := by
    refine text_within hn h3 (fun v hv hd => ?_) (fun e _ => e)
    unfold tomlPoetrySource at hd
    simp only [Option.bind_eq_bind, Option.bind_eq_some_iff] at hd
    obtain ⟨gs, hg, _, _, h4⟩ := hd
    cases fields_some hg
    exact text_field (plain_keys (plain_entry hp hv)) h4
  unfold PoetrySays PoetryEntry
  simp only [text_field hn h1, text_field hn h2, hc, exists_and_left, exists_eq_left]

theorem pdm_says {v : TNode} (hp : TPlain v) {x : PdmPackage} (h : tomlPdmPackage v = some x) (p : PackageDetails) :
    PdmEntry x p ↔ PdmSays v p := by
  unfold tomlPdmPackage at h
  simp only [Option.bind_eq_bind, Option.bind_eq_some_iff] at h
  obtain ⟨es, hf, a, h1, b, h2, _, _, c, h3, e⟩ := h
  cases e
  cases fields_some hf
  have hn := plain_keys hp
  unfold PdmSays PdmEntry
  simp only [text_field hn h1, text_field hn h2, text_field hn h3, exists_and_left, exists_eq_left]

theorem uv_says {optional : TNode → Option Unit} {v : TNode} (hp : TPlain v) {x : UvPackage} (h : tomlUvPackage optional v = some x)
    (p : PackageDetails) : UvEntry x p ↔ UvSays v p := by
  unfold tomlUvPackage at h
  simp only [Option.bind_eq_bind, Option.bind_eq_some_iff] at h
  obtain ⟨es, hf, a, h1, b, h2, c, h3, _, _, e⟩ := h
  cases e
  cases fields_some hf
  have hn := plain_keys hp
  have hv : ∀ t, TText (.table es) [g!"source", g!"virtual"] t ↔ t = c.1 := by
    refine text_within hn h3 (fun v he hd => ?_) (fun e _ => by rw [e])
    unfold tomlUvSource at hd
    simp only [Option.bind_eq_bind, Option.bind_eq_some_iff] at hd
    obtain ⟨gs, hg, _, h4, _, _, e⟩ := hd
    cases fields_some hg
    cases e
    exact text_field (plain_keys (plain_entry hp he)) h4
  have hg : ∀ t, TText (.table es) [g!"source", g!"git"] t ↔ t = c.2 := by
    refine text_within hn h3 (fun v he hd => ?_) (fun e _ => by rw [e])
    unfold tomlUvSource at hd
    simp only [Option.bind_eq_bind, Option.bind_eq_some_iff] at hd
    obtain ⟨gs, hg, _, _, _, h4, e⟩ := hd
    cases fields_some hg
    cases e
    exact text_field (plain_keys (plain_entry hp he)) h4
  unfold UvSays UvEntry
  simp only [text_field hn h1, text_field hn h2, hv, hg]
  constructor
  · rintro ⟨h, commit, hc, rfl⟩
    exact ⟨fun e => h e.symm, a, b, c.2, commit, rfl, rfl, rfl, hc, rfl⟩
  · rintro ⟨h, _, _, _, commit, rfl, rfl, rfl, hc, rfl⟩
    exact ⟨fun e => h e.symm, commit, hc, rfl⟩

theorem pylock_says {v : TNode} (hp : TPlain v) {x : PylockPackage} (h : tomlPylockPackage v = some x) (p : PackageDetails) :
    PylockEntry x p ↔ PylockSays v p := by
  unfold tomlPylockPackage at h
  simp only [Option.bind_eq_bind, Option.bind_eq_some_iff] at h
  obtain ⟨es, hf, a, h1, b, h2, c, h3, d, h4, e⟩ := h
  cases e
  cases fields_some hf
  have hn := plain_keys hp
  have hc : ∀ t, TText (.table es) [g!"vcs", g!"commit-id"] t ↔ t = c := by
    refine text_within hn h3 (fun v hv hd => ?_) (fun e _ => e)
    unfold tomlPylockVCS at hd
    simp only [Option.bind_eq_bind, Option.bind_eq_some_iff] at hd
    obtain ⟨gs, hg, _, _, h4⟩ := hd
    cases fields_some hg
    exact text_field (plain_keys (plain_entry hp hv)) h4
  have hd : ∀ t, TText (.table es) [g!"directory", g!"path"] t ↔ t = d := by
    refine text_within hn h4 (fun v hv hd => ?_) (fun e _ => e)
    unfold tomlPylockDirectory at hd
    simp only [Option.bind_eq_bind, Option.bind_eq_some_iff] at hd
    obtain ⟨gs, hg, h4⟩ := hd
    cases fields_some hg
    exact text_field (plain_keys (plain_entry hp hv)) h4
  unfold PylockSays PylockEntry
  simp only [text_field hn h1, text_field hn h2, hc, hd]
  constructor
  · rintro ⟨h, rfl⟩
    exact ⟨fun e => h ⟨e.1.symm, e.2.symm⟩, a, b, c, rfl, rfl, rfl, rfl⟩
  · rintro ⟨h, _, _, _, rfl, rfl, rfl, rfl⟩
    exact ⟨fun e => h ⟨e.1.symm, e.2.symm⟩, rfl⟩

end Toml

/-- Cargo.lock: there is no error exactly if the document has the shape. -/
theorem C76_cargo_accepted (toml : TomlReader) (content : Str) (n : TNode) (h : toml content = some n) :
    (parseCargoLock (cargoDecode toml) (some content)).2 = false ↔ CargoShape n := by
  rw [← Toml.cargo_isSome]
  unfold parseCargoLock cargoDecode
  rw [Option.bind_some, h, Option.bind_some]
  cases tomlCargo n <;> simp

/-- Cargo.lock: the packages reported are those of the document. -/
theorem C76_cargo_read (toml : TomlReader) (content : Str) (n : TNode) (h : toml content = some n) (hp : TPlain n)
    (ps : List PackageDetails) (hps : parseCargoLock (cargoDecode toml) (some content) = (ps, false)) :
    ∃ items, TItems n g!"package" items ∧ Entries CargoSays items ps := by
  cases hd : tomlCargo n with
  | none =>
    unfold parseCargoLock cargoDecode at hps
    rw [Option.bind_some, h, Option.bind_some, hd] at hps
    cases hps
  | some l =>
    obtain ⟨ps', h1, h2⟩ := C57_cargo (cargoDecode toml) content l (by unfold cargoDecode; rw [h, Option.bind_some, hd])
    rw [h1] at hps
    cases hps
    unfold tomlCargo at hd
    simp only [Option.bind_eq_bind, Option.bind_eq_some_iff] at hd
    obtain ⟨es, hf, _, _, hl⟩ := hd
    cases Toml.fields_some hf
    obtain ⟨items, hi, he⟩ := Toml.list_field (Toml.plain_keys hp) hl
    exact ⟨items, hi, Toml.entries_of_each he h2 fun v hv a ha p => Toml.cargo_says (Toml.plain_items hp hi v hv) ha p⟩

/-- poetry.lock: there is no error exactly if the document has the shape. -/
theorem C76_poetry_accepted (toml : TomlReader) (content : Str) (n : TNode) (h : toml content = some n) :
    (parsePoetryLock (poetryDecode toml) (some content)).2 = false ↔ PoetryShape n := by
  rw [← Toml.poetry_isSome]
  unfold parsePoetryLock poetryDecode
  rw [Option.bind_some, h, Option.bind_some]
  cases tomlPoetry n <;> simp

/-- poetry.lock: the packages reported are those of the document. -/
theorem C76_poetry_read (toml : TomlReader) (content : Str) (n : TNode) (h : toml content = some n) (hp : TPlain n)
    (ps : List PackageDetails) (hps : parsePoetryLock (poetryDecode toml) (some content) = (ps, false)) :
    ∃ items, TItems n g!"package" items ∧ Entries PoetrySays items ps := by
  cases hd : tomlPoetry n with
  | none =>
    unfold parsePoetryLock poetryDecode at hps
    rw [Option.bind_some, h, Option.bind_some, hd] at hps
    cases hps
  | some l =>
    obtain ⟨ps', h1, h2⟩ := C57_poetry (poetryDecode toml) content l (by unfold poetryDecode; rw [h, Option.bind_some, hd])
    rw [h1] at hps
    cases hps
    unfold tomlPoetry at hd
    simp only [Option.bind_eq_bind, Option.bind_eq_some_iff] at hd
    obtain ⟨es, hf, _, _, hl⟩ := hd
    cases Toml.fields_some hf
    obtain ⟨items, hi, he⟩ := Toml.list_field (Toml.plain_keys hp) hl
    exact ⟨items, hi, Toml.entries_of_each he h2 fun v hv a ha p => Toml.poetry_says (Toml.plain_items hp hi v hv) ha p⟩

/-- pdm.lock: there is no error exactly if the document has the shape. -/
theorem C76_pdm_accepted (toml : TomlReader) (content : Str) (n : TNode) (h : toml content = some n) :
    (parsePdmLock (pdmDecode toml) (some content)).2 = false ↔ PdmShape n := by
  rw [← Toml.pdm_isSome]
  unfold parsePdmLock pdmDecode
  rw [Option.bind_some, h, Option.bind_some]
  cases tomlPdm n <;> simp

/-- pdm.lock: the packages reported are those of the document. -/
theorem C76_pdm_read (toml : TomlReader) (content : Str) (n : TNode) (h : toml content = some n) (hp : TPlain n)
    (ps : List PackageDetails) (hps : parsePdmLock (pdmDecode toml) (some content) = (ps, false)) :
    ∃ items, TItems n g!"package" items ∧ Entries PdmSays items ps := by
  cases hd : tomlPdm n with
  | none =>
    unfold parsePdmLock pdmDecode at hps
    rw [Option.bind_some, h, Option.bind_some, hd] at hps
    cases hps
  | some l =>
    obtain ⟨ps', h1, h2⟩ := C57_pdm (pdmDecode toml) content l (by unfold pdmDecode; rw [h, Option.bind_some, hd])
    rw [h1] at hps
    cases hps
    unfold tomlPdm at hd
    simp only [Option.bind_eq_bind, Option.bind_eq_some_iff] at hd
    obtain ⟨es, hf, _, _, hl⟩ := hd
    cases Toml.fields_some hf
    obtain ⟨items, hi, he⟩ := Toml.list_field (Toml.plain_keys hp) hl
    exact ⟨items, hi, Toml.entries_of_each he h2 fun v hv a ha p => Toml.pdm_says (Toml.plain_items hp hi v hv) ha p⟩

/-- uv.lock: there is no error exactly if the document has the shape. -/
theorem C76_uv_accepted (optional : TNode → Option Unit) (toml : TomlReader) (content : Str) (n : TNode) (h : toml content = some n) :
    (parseUvLock (uvDecode optional toml) (some content)).2 = false ↔ UvShape (fun v => (optional v).isSome) n := by
  rw [← Toml.uv_isSome]
  unfold parseUvLock uvDecode
  rw [Option.bind_some, h, Option.bind_some]
  cases tomlUv optional n <;> simp

/-- uv.lock: the packages reported are those of the document. -/
theorem C76_uv_read (optional : TNode → Option Unit) (toml : TomlReader) (content : Str) (n : TNode) (h : toml content = some n) (hp : TPlain n)
    (ps : List PackageDetails) (hps : parseUvLock (uvDecode optional toml) (some content) = (ps, false)) :
    ∃ items, TItems n g!"package" items ∧ Entries UvSays items ps := by
  cases hd : tomlUv optional n with
  | none =>
    unfold parseUvLock uvDecode at hps
    rw [Option.bind_some, h, Option.bind_some, hd] at hps
    cases hps
  | some l =>
    obtain ⟨ps', h1, h2⟩ := C57_uv (uvDecode optional toml) content l (by unfold uvDecode; rw [h, Option.bind_some, hd])
    rw [h1] at hps
    cases hps
    unfold tomlUv at hd
    simp only [Option.bind_eq_bind, Option.bind_eq_some_iff] at hd
    obtain ⟨es, hf, _, _, hl⟩ := hd
    cases Toml.fields_some hf
    obtain ⟨items, hi, he⟩ := Toml.list_field (Toml.plain_keys hp) hl
    exact ⟨items, hi, Toml.entries_of_each he h2 fun v hv a ha p => Toml.uv_says (Toml.plain_items hp hi v hv) ha p⟩

/-- pylock.toml: there is no error exactly if the document has the shape. -/
theorem C76_pylock_accepted (toml : TomlReader) (content : Str) (n : TNode) (h : toml content = some n) :
    (parsePylock (pylockDecode toml) (some content)).2 = false ↔ PylockShape n := by
  rw [← Toml.pylock_isSome]
  unfold parsePylock pylockDecode
  rw [Option.bind_some, h, Option.bind_some]
  cases tomlPylock n <;> simp

/-- pylock.toml: the packages reported are those of the document. -/
theorem C76_pylock_read (toml : TomlReader) (content : Str) (n : TNode) (h : toml content = some n) (hp : TPlain n)
    (ps : List PackageDetails) (hps : parsePylock (pylockDecode toml) (some content) = (ps, false)) :
    ∃ items, TItems n g!"packages" items ∧ Entries PylockSays items ps := by
  cases hd : tomlPylock n with
  | none =>
    unfold parsePylock pylockDecode at hps
    rw [Option.bind_some, h, Option.bind_some, hd] at hps
    cases hps
  | some l =>
    obtain ⟨ps', h1, h2⟩ := C57_pylock (pylockDecode toml) content l (by unfold pylockDecode; rw [h, Option.bind_some, hd])
    rw [h1] at hps
    cases hps
    unfold tomlPylock at hd
    simp only [Option.bind_eq_bind, Option.bind_eq_some_iff] at hd
    obtain ⟨es, hf, _, _, hl⟩ := hd
    cases Toml.fields_some hf
    obtain ⟨items, hi, he⟩ := Toml.list_field (Toml.plain_keys hp) hl
    exact ⟨items, hi, Toml.entries_of_each he h2 fun v hv a ha p => Toml.pylock_says (Toml.plain_items hp hi v hv) ha p⟩

/-- The same document in two orders: which of `name` and `Name` counts depends on the order of the iteration. -/
theorem C76_case_counterexample :
    let doc := fun es => TNode.table [(g!"package", .arr [.table es])]
    parseCargoLock (cargoDecode fun _ => some (doc [(g!"name", .str g!"a"), (g!"Name", .str g!"b")])) (some []) ≠
    parseCargoLock (cargoDecode fun _ => some (doc [(g!"Name", .str g!"b"), (g!"name", .str g!"a")])) (some []) := by
  decide

/-- A document in which no keys differ in case only. -/
def C76_sample_doc : TNode := .table [(g!"version", .int 1), (g!"package", .arr [
  .table [(g!"name", .str g!"a"), (g!"version", .str g!"1"), (g!"source", .table [(g!"git", .str g!"https://x#abc")])],
  .table [(g!"name", .str g!"root"), (g!"source", .table [(g!"virtual", .str g!".")])]])]

example : TPlain C76_sample_doc := by
  refine .table (by decide) ?_
  simp only [List.mem_cons, List.not_mem_nil, or_false, forall_eq_or_imp, forall_eq]
  refine ⟨.int 1, .arr ?_⟩
  simp only [List.mem_cons, List.not_mem_nil, or_false, forall_eq_or_imp, forall_eq]
  refine ⟨.table (by decide) ?_, .table (by decide) ?_⟩ <;>
    simp only [List.mem_cons, List.not_mem_nil, or_false, forall_eq_or_imp, forall_eq]
  · refine ⟨.str _, .str _, .table (by decide) ?_⟩
    simp only [List.mem_cons, List.not_mem_nil, or_false, forall_eq]
    exact .str _
  · refine ⟨.str _, .table (by decide) ?_⟩
    simp only [List.mem_cons, List.not_mem_nil, or_false, forall_eq]
    exact .str _

example : parseUvLock (uvDecode (fun _ => some ()) fun _ => some C76_sample_doc) (some []) =
    ([⟨g!"a", g!"1", g!"abc", g!"PyPI", g!"PyPI"⟩], false) := by decide

/-- A version that is not an integer is refused although it is never used. -/
example : parseCargoLock (cargoDecode fun _ => some (.table [(g!"version", .str g!"1")])) (some []) = ([], true) := by decide

end Osv
