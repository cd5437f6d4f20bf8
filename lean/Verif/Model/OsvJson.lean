import Verif.Go.JsonDecode
import Verif.Go.JsonEncode
import Verif.Model.Osv
/-!
# Advisories as JSON (`pkg/database/osv.go`)

`canon` is `time.Time`: it parses the text of a time (RFC 3339) and prints it again. Simplification: `UnmarshalJSON` of a time
looks at the text before escapes are resolved, `canon` at the text after.
-/
namespace Osv
open Str Json

/-- `time.Time.UnmarshalJSON` into a time that holds `old`. -/
def decTime (canon : Str → Option Str) (v : JVal) (old : Str) : Option Str :=
  match v with
  | .null => some old
  | .str s => canon s
  | _ => none

/-- Into a `*time.Time`. -/
def decTimePtr (canon : Str → Option Str) (v : JVal) : Option (Option Str) :=
  match v with
  | .null => some none
  | .str s => (canon s).map some
  | _ => none

def rangeEventFields : List Str := [g!"introduced", g!"fixed", g!"last_affected"]

/-- `pkg/database/osv.go:60-64`: the fields of `RangeEvent`. -/
def rangeEventStep (f : Str) (v : JVal) (e : RangeEvent) : Option RangeEvent :=
  if f = g!"introduced" then (decStr v e.introduced).map fun s => { e with introduced := s }
  else if f = g!"fixed" then (decStr v e.fixed).map fun s => { e with fixed := s }
  else (decStr v e.lastAffected).map fun s => { e with lastAffected := s }

/-- Into a zero `RangeEvent`. -/
def decRangeEvent (v : JVal) : Option RangeEvent := decStruct rangeEventFields rangeEventStep v {}

def rangeFields : List Str := [g!"type", g!"events"]

/-- `pkg/database/osv.go:66-69`: the fields of `AffectsRange`. -/
def rangeStep (f : Str) (v : JVal) (r : AffectsRange) : Option AffectsRange :=
  if f = g!"type" then (decStr v r.type).map fun s => { r with type := s }
  else (decSlice decRangeEvent v).map fun l => { r with events := l }

/-- Into a zero `AffectsRange`. -/
def decRange (v : JVal) : Option AffectsRange := decStruct rangeFields rangeStep v ⟨[], []⟩

def packageFields : List Str := [g!"name", g!"ecosystem"]

/-- `pkg/database/osv.go:29-32`: the fields of `Package`. -/
def packageStep (f : Str) (v : JVal) (p : Package) : Option Package :=
  if f = g!"name" then (decStr v p.name).map fun s => { p with name := s }
  else (decStr v p.ecosystem).map fun s => { p with ecosystem := s }

def affectedFields : List Str := [g!"package", g!"versions", g!"ranges"]

/-- `pkg/database/osv.go:175-179`: the fields of `Affected`. -/
def affectedStep (f : Str) (v : JVal) (a : Affected) : Option Affected :=
  if f = g!"package" then (decStruct packageFields packageStep v a.package).map fun p => { a with package := p }
  else if f = g!"versions" then (decSlice (fun w => decStr w []) v).map fun l => { a with versions := l }
  else (decSlice decRange v).map fun l => { a with ranges := l }

/-- Into a zero `Affected`. -/
def decAffected (v : JVal) : Option Affected := decStruct affectedFields affectedStep v { package := ⟨[], []⟩ }

def osvFields : List Str :=
  [g!"id", g!"aliases", g!"summary", g!"published", g!"modified", g!"withdrawn", g!"details", g!"affected"]

/-- `pkg/database/osv.go:182-191`: the fields of `OSV`. -/
def osvStep (canon : Str → Option Str) (f : Str) (v : JVal) (o : OSV) : Option OSV :=
  if f = g!"id" then (decStr v o.id).map fun s => { o with id := s }
  else if f = g!"aliases" then (decSlice (fun w => decStr w []) v).map fun l => { o with aliases := l }
  else if f = g!"summary" then (decStr v o.summary).map fun s => { o with summary := s }
  else if f = g!"published" then (decTime canon v o.published).map fun t => { o with published := t }
  else if f = g!"modified" then (decTime canon v o.modified).map fun t => { o with modified := t }
  else if f = g!"withdrawn" then (decTimePtr canon v).map fun t => { o with withdrawn := t }
  else if f = g!"details" then (decStr v o.details).map fun s => { o with details := s }
  else (decSlice decAffected v).map fun l => { o with affected := l }

/-- Into a zero `OSV`. -/
def decOSV (canon : Str → Option Str) (v : JVal) : Option OSV := decStruct osvFields (osvStep canon) v default

/-- `json.Unmarshal` of a text into an `OSV` (`pkg/database/zip.go:160`, `pkg/database/dir.go:74`, `pkg/database/api-fetch.go:66`);
`none` if it reports an error. -/
def unmarshalOSV (canon : Str → Option Str) (text : Str) : Option OSV := (parse text).bind (decOSV canon)

/-- `pkg/database/osv.go:60-64` `RangeEvent` as JSON. -/
def encRangeEvent (e : RangeEvent) : JVal :=
  jobj (textIf g!"introduced" e.introduced ++ textIf g!"fixed" e.fixed ++ textIf g!"last_affected" e.lastAffected)

/-- `pkg/database/osv.go:66-69` `AffectsRange` as JSON. -/
def EncRange (r : AffectsRange) (v : JVal) : Prop :=
  ∃ es, Slice (r.events.map encRangeEvent) es ∧ v = jobj [textAs g!"type" r.type, (g!"events", es)]

/-- `pkg/database/osv.go:29-32` `Package` as JSON. -/
def encPackage (p : Package) : JVal := jobj [textAs g!"name" p.name, textAs g!"ecosystem" p.ecosystem]

/-- `pkg/database/osv.go:161-173` `Versions.MarshalJSON`. -/
def encVersions (vs : List Str) : JVal := if vs.length = 0 then jarr [] else jarr (vs.map .str)

/-- `pkg/database/osv.go:175-179` `Affected` as JSON. -/
def EncAffected (a : Affected) (v : JVal) : Prop :=
  ∃ rs, Each EncRange a.ranges rs ∧
    v = jobj ([(g!"package", encPackage a.package), (g!"versions", encVersions a.versions)] ++
      (if rs.length = 0 then [] else [(g!"ranges", jarr rs)]))

/-- `pkg/database/osv.go:182-191` `OSV` as JSON. -/
def EncOSV (o : OSV) (v : JVal) : Prop :=
  ∃ al as af, Slice (o.aliases.map .str) al ∧ Each EncAffected o.affected as ∧ Slice as af ∧
    v = jobj ([textAs g!"id" o.id, (g!"aliases", al), textAs g!"summary" o.summary, textAs g!"published" o.published,
        textAs g!"modified" o.modified] ++
      (match o.withdrawn with | none => [] | some t => [textAs g!"withdrawn" t]) ++
      [textAs g!"details" o.details, (g!"affected", af)])

/-- `pkg/database/vulnerabilities.go:41-55` `Vulnerabilities.MarshalJSON`. -/
def EncVulns (l : List OSV) (v : JVal) : Prop := ∃ vs, Each EncOSV l vs ∧ v = jarr (if l.length = 0 then [] else vs)

end Osv
