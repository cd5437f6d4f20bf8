import Verif.Lemmas.ModLines
import Verif.Props.C78
/-!
# C95: go.mod files are read from their text

`Spec.ModText.Reads` is a grammar: lines, their words, blocks, directives and the modules they name. The decoder of
`golang.org/x/mod/modfile` is modelled from the text in `Model/ModFile`; `print` tells which characters outside of ASCII are visible.
-/
namespace Osv
open Str Spec

/-- A go.mod is accepted exactly when its text is one of the grammar, and then gives the modules that the text requires and replaces. -/
theorem C95_text (print : Char → Bool) (content : Str) (f : GoModFile) :
    ModFile.decode print content = some f ↔ ModText.Reads print content f := ModFile.decode_iff

/-- A text can be read in one way only. -/
theorem C95_unique {print : Char → Bool} {content : Str} {f g : GoModFile} (h1 : ModText.Reads print content f)
    (h2 : ModText.Reads print content g) : f = g := by
  have := (C95_text print content f).2 h1
  rw [(C95_text print content g).2 h2] at this
  injection this with this
  exact this.symm

variable {print : Char → Bool} {P : ParserEnv} {path content : Str}

/-- The packages of a go.mod, from its text. -/
theorem C95_packages (hP : P.gomod = ModFile.decode print) (h : FairOrders P) (hc : P.file path = some content) {f : GoModFile}
    (hr : ModText.Reads print content f) (hok : GoModOk f) (hu : GoMod.Unchained f.replace) :
    ∃ pkgs, parseFile P g!"go.mod" path = some (pkgs, false) ∧ pkgs.Nodup ∧
      ∀ p, p ∈ pkgs ↔ ∃ m ∈ f.require, ∃ n, GoSelected f.replace m n ∧ GoReported n p :=
  C78_go h hc (by rw [hP]; exact (C95_text print content f).2 hr) hok hu

/-- The packages of every go.mod, with directives applied in the order of the text. -/
theorem C95_applied (hP : P.gomod = ModFile.decode print) (h : FairOrders P) (hc : P.file path = some content) {f : GoModFile}
    (hr : ModText.Reads print content f) (hreq : ∀ m ∈ f.require, '@' ∉ m.path)
    (hrep : ∀ r ∈ f.replace, '@' ∉ r.old.path ∧ '@' ∉ r.new.path) :
    ∃ pkgs, parseFile P g!"go.mod" path = some (pkgs, false) ∧ pkgs.Nodup ∧
      ∀ p, p ∈ pkgs ↔ ∃ m ∈ f.require, ∃ n, GoApplied m m f.replace n ∧ GoReported n p := by
  rw [show parseFile P g!"go.mod" path = some (parseGoLock P.gomod P.iterGo P.order (P.file path)) from rfl, hc, hP]
  obtain ⟨pkgs, h1, h2⟩ := C48_applied h.go h.order content f ((C95_text print content f).2 hr) hreq hrep
  exact ⟨pkgs, congrArg some h1, h2⟩

/-- A go.mod is an error exactly when its text is not one of the grammar, so that no part of a text is passed over. -/
theorem C95_error (hP : P.gomod = ModFile.decode print) (hc : P.file path = some content) :
    (∃ pkgs, parseFile P g!"go.mod" path = some (pkgs, true)) ↔ ∀ f, ¬ ModText.Reads print content f := by
  rw [show parseFile P g!"go.mod" path = some (parseGoLock P.gomod P.iterGo P.order (P.file path)) from rfl, hc, hP]
  unfold parseGoLock
  rw [Option.bind_some]
  cases hd : ModFile.decode print content with
  | none =>
    refine ⟨fun _ f hf => ?_, fun _ => ⟨[], rfl⟩⟩
    rw [(C95_text print content f).2 hf] at hd
    simp at hd
  | some f =>
    constructor
    · rintro ⟨pkgs, e⟩; simp at e
    · intro h; exact absurd ((C95_text print content f).1 hd) (h f)

/-- A go.mod with a quoted path, a build that is dropped, a block, comments and replacements. -/
def C95_sample : Str :=
  g!"module example.com/m // main\n\ngo 1.24.6\n\nrequire (\n\tgithub.com/a/b v1.2.3 // indirect\n\t\"gopkg.in/c.v2\" v2.0.0+x\n)\n\nrequire d/v3 v3.1\nreplace d/v3 => ../d\nreplace github.com/a/b v1.2.3 => e/v2 v2.0.1\nexclude f v0.1.0"

/-- What `C95_sample` says. -/
def C95_sample_file : GoModFile :=
  ⟨[⟨g!"github.com/a/b", g!"v1.2.3"⟩, ⟨g!"gopkg.in/c.v2", g!"v2.0.0"⟩, ⟨g!"d/v3", g!"v3.1.0"⟩],
    [⟨⟨g!"d/v3", []⟩, ⟨g!"../d", []⟩⟩, ⟨⟨g!"github.com/a/b", g!"v1.2.3"⟩, ⟨g!"e/v2", g!"v2.0.1"⟩⟩]⟩

-- the hypotheses can be met
example : ModText.Reads (fun _ => false) C95_sample C95_sample_file := by
  have h : ModFile.parse (fun _ => false) C95_sample = some ⟨true, false, true, C95_sample_file.require, C95_sample_file.replace⟩ := by
    decide +kernel
  refine (C95_text _ _ _).1 ?_
  unfold ModFile.decode
  rw [h]
  rfl
example : GoModOk C95_sample_file ∧ GoMod.Unchained C95_sample_file.replace := by
  refine ⟨⟨by decide, by decide, by decide⟩, by unfold GoMod.Unchained; decide⟩
-- a directive that is not known, or a version that does not belong to the path, makes the file an error
example : ModFile.parse (fun _ => false) g!"require a v1.0.0\nrequires b v1.0.0\n" = none := by decide +kernel
example : ModFile.parse (fun _ => false) g!"require a/v2 v3.0.0\n" = none := by decide +kernel

end Osv
