import Verif.Spec.JsonDoc
import Verif.Spec.Text
import Verif.Model.LockToml
import Verif.Model.LockPubspec
/-! # What the one-to-one lockfiles list -/
namespace Osv.Spec
open Osv Str

/-- A package of the given ecosystem. -/
def pkg (eco : Ecosystem) (name version commit : Str) : PackageDetails := ⟨name, version, commit, eco, eco⟩

/-- The text behind the first `#`, nothing if there is none. -/
def AfterHash (s t : Str) : Prop := ('#' ∉ s ∧ t = []) ∨ ∃ a, s = a ++ '#' :: t ∧ '#' ∉ a

/-- A package of Cargo.lock. -/
def CargoEntry (x : CargoPackage) (p : PackageDetails) : Prop := p = pkg g!"crates.io" x.name x.version []

/-- A package of poetry.lock. -/
def PoetryEntry (x : PoetryPackage) (p : PackageDetails) : Prop := p = pkg g!"PyPI" x.name x.version x.commit

/-- A package of pdm.lock. -/
def PdmEntry (x : PdmPackage) (p : PackageDetails) : Prop := p = pkg g!"PyPI" x.name x.version x.revision

/-- A package of uv.lock other than the root, which is the one whose virtual source is the directory itself. -/
def UvEntry (x : UvPackage) (p : PackageDetails) : Prop :=
  x.virtual ≠ g!"." ∧ ∃ commit, AfterHash x.git commit ∧ p = pkg g!"PyPI" x.name x.version commit

/-- A package of pylock.toml other than the root, which has no version and is the directory itself. -/
def PylockEntry (x : PylockPackage) (p : PackageDetails) : Prop :=
  ¬ (x.version = [] ∧ x.path = g!".") ∧ p = pkg g!"PyPI" x.name x.version x.commit

/-- A package of pubspec.lock; the commit is in a description that is a struct. -/
def PubspecEntry (x : Str × PubspecPackage) (p : PackageDetails) : Prop :=
  ∃ commit, p = pkg g!"Pub" x.1 x.2.version commit ∧
    ((∃ n d, x.2.description = some n ∧ n.asStruct = some d ∧ commit = d.ref) ∨
     (∃ n s, x.2.description = some n ∧ n.asStruct = none ∧ n.asString = some (some s) ∧ commit = []) ∨
     (x.2.description = none ∧ commit = []))

/-- A value decoded as an object: null stands for the empty one. -/
def ObjectOf (v : JVal) (o : JMembers) : Prop := v = .obj o ∨ (v = .null ∧ o = .nil)

/-- A value decoded as an array: null stands for the empty one. -/
def ArrayOf (v : JVal) (l : List JVal) : Prop := (∃ a, v = .arr a ∧ l = a.toList) ∨ (v = .null ∧ l = [])

/-- The object in member `f`, empty if it is missing or null. -/
def ObjectField (m : JMembers) (f : Str) (o : JMembers) : Prop :=
  (∃ v, Member m f v ∧ ObjectOf v o) ∨ ((∀ v, ¬ Member m f v) ∧ o = .nil)

/-- The elements of the array in member `f`, none if it is missing or null. -/
def ArrayField (m : JMembers) (f : Str) (l : List JVal) : Prop :=
  (∃ v, Member m f v ∧ ArrayOf v l) ∨ ((∀ v, ¬ Member m f v) ∧ l = [])

/-- A package of composer.lock: a reference with a dot is a tag and not a commit. -/
def ComposerEntry (x : JVal) (p : PackageDetails) : Prop :=
  ∃ o name version dist reference commit, ObjectOf x o ∧ TextField o g!"name" name ∧ TextField o g!"version" version ∧
    ObjectField o g!"dist" dist ∧ TextField dist g!"reference" reference ∧
    (('.' ∈ reference ∧ commit = []) ∨ ('.' ∉ reference ∧ commit = reference)) ∧ p = pkg g!"Packagist" name version commit

/-- A package of composer.lock is an object with texts, whose `dist` is an object with a text. -/
def ComposerTyped (x : JVal) : Prop :=
  ∃ o, ObjectOf x o ∧ PlainKeys [g!"name", g!"version", g!"dist"] o ∧ (∀ v, Member o g!"name" v → IsText v) ∧
    (∀ v, Member o g!"version" v → IsText v) ∧
    ∀ v, Member o g!"dist" v → ∃ d, ObjectOf v d ∧ PlainKeys [g!"reference"] d ∧ ∀ w, Member d g!"reference" w → IsText w

/-- The text of a composer.lock with the given packages. -/
def ComposerFile (content : Str) (packages dev : List JVal) : Prop :=
  ∃ doc, Json.parse content = some (.obj doc) ∧ PlainKeys [g!"packages", g!"packages-dev"] doc ∧
    ArrayField doc g!"packages" packages ∧ ArrayField doc g!"packages-dev" dev ∧ ∀ x ∈ packages ++ dev, ComposerTyped x

/-- A package of renv.lock that is not from another repository than CRAN. -/
def RenvEntry (x : Str × JVal) (p : PackageDetails) : Prop :=
  ∃ o name version repository, ObjectOf x.2 o ∧ TextField o g!"Package" name ∧ TextField o g!"Version" version ∧
    TextField o g!"Repository" repository ∧ (repository = [] ∨ repository = g!"CRAN") ∧ p = pkg g!"CRAN" name version []

/-- A package of renv.lock is an object with texts. -/
def RenvTyped (x : JVal) : Prop :=
  ∃ o, ObjectOf x o ∧ PlainKeys [g!"Package", g!"Version", g!"Repository"] o ∧
    ∀ f ∈ [g!"Package", g!"Version", g!"Repository"], ∀ v, Member o f v → IsText v

/-- The text of a renv.lock with the given packages. -/
def RenvFile (content : Str) (packages : JMembers) : Prop :=
  ∃ doc, Json.parse content = some (.obj doc) ∧ PlainKeys [g!"Packages"] doc ∧ ObjectField doc g!"Packages" packages ∧
    DistinctKeys packages ∧ ∀ k x, Member packages k x → RenvTyped x

end Osv.Spec
