import Verif.Spec.JsonDoc
import Verif.Model.OsvJson
/-!
# What a JSON document says about a vulnerability

Members with other names are allowed anywhere. A member that is missing or null stands for an empty text, an empty list, the zero
time, or no time. `canon` reads the text of a time.
-/
namespace Osv.Spec
open Osv Str

/-- Member `f` is a list whose elements are the items. -/
def ListField {α : Type} (R : α → JVal → Prop) (m : JMembers) (f : Str) (items : List α) : Prop :=
  (∃ l, Member m f (.arr l) ∧ Each R items l.toList) ∨ (items = [] ∧ ∀ v, Member m f v → v = .null)

/-- A text in a list; null stands for the empty text. -/
def TextIs (s : Str) (v : JVal) : Prop := v = .str s ∨ (v = .null ∧ s = [])

def IsEvent (e : RangeEvent) (v : JVal) : Prop :=
  (v = .null ∧ e = {}) ∨ ∃ m, v = .obj m ∧ TextField m g!"introduced" e.introduced ∧ TextField m g!"fixed" e.fixed ∧
    TextField m g!"last_affected" e.lastAffected

def IsRange (r : AffectsRange) (v : JVal) : Prop :=
  (v = .null ∧ r = ⟨[], []⟩) ∨ ∃ m, v = .obj m ∧ TextField m g!"type" r.type ∧ ListField IsEvent m g!"events" r.events

def IsPackage (p : Package) (v : JVal) : Prop :=
  (v = .null ∧ p = ⟨[], []⟩) ∨ ∃ m, v = .obj m ∧ TextField m g!"name" p.name ∧ TextField m g!"ecosystem" p.ecosystem

def IsAffectedEntry (a : Affected) (v : JVal) : Prop :=
  (v = .null ∧ a = { package := ⟨[], []⟩ }) ∨ ∃ m, v = .obj m ∧
    ((∃ w, Member m g!"package" w ∧ IsPackage a.package w) ∨ (a.package = ⟨[], []⟩ ∧ ∀ w, ¬ Member m g!"package" w)) ∧
    ListField TextIs m g!"versions" a.versions ∧ ListField IsRange m g!"ranges" a.ranges

/-- The time under `f`; without one it is Go's zero time, as it is written in JSON. -/
def TimeField (canon : Str → Option Str) (m : JMembers) (f t : Str) : Prop :=
  (∃ s, Member m f (.str s) ∧ canon s = some t) ∨ (t = g!"0001-01-01T00:00:00Z" ∧ ∀ v, Member m f v → v = .null)

/-- The time under `f`, if there is one. -/
def MaybeTimeField (canon : Str → Option Str) (m : JMembers) (f : Str) (t : Option Str) : Prop :=
  (∃ s t', Member m f (.str s) ∧ canon s = some t' ∧ t = some t') ∨ (t = none ∧ ∀ v, Member m f v → v = .null)

/-- The object describes the advisory. -/
def IsAdvisory (canon : Str → Option Str) (o : OSV) (m : JMembers) : Prop :=
  TextField m g!"id" o.id ∧ ListField TextIs m g!"aliases" o.aliases ∧ TextField m g!"summary" o.summary ∧
  TimeField canon m g!"published" o.published ∧ TimeField canon m g!"modified" o.modified ∧
  MaybeTimeField canon m g!"withdrawn" o.withdrawn ∧ TextField m g!"details" o.details ∧
  ListField IsAffectedEntry m g!"affected" o.affected

/-- Elements of the list under `f`. -/
def InList (m : JMembers) (f : Str) (v : JVal) : Prop := ∃ l, Member m f (.arr l) ∧ v ∈ l.toList

def PlainRange (v : JVal) : Prop :=
  ∀ m, v = .obj m → PlainKeys [g!"type", g!"events"] m ∧
    ∀ e, InList m g!"events" (.obj e) → PlainKeys [g!"introduced", g!"fixed", g!"last_affected"] e

def PlainAffected (v : JVal) : Prop :=
  ∀ m, v = .obj m → PlainKeys [g!"package", g!"versions", g!"ranges"] m ∧
    (∀ p, Member m g!"package" (.obj p) → PlainKeys [g!"name", g!"ecosystem"] p) ∧
    ∀ r, InList m g!"ranges" r → PlainRange r

/-- Wherever a member is looked up, no key occurs twice or differs from the wanted one in case only. -/
def PlainAdvisory (m : JMembers) : Prop :=
  PlainKeys [g!"id", g!"aliases", g!"summary", g!"published", g!"modified", g!"withdrawn", g!"details", g!"affected"] m ∧
    ∀ a, InList m g!"affected" a → PlainAffected a

end Osv.Spec
