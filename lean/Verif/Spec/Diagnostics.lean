import Verif.Spec.World
/-! # When everything in a database was read -/
namespace Osv.Spec

/-- The entry of an archive holds an advisory. -/
def Holds (decode : Str → Option OSV) (e : ZipEntry) (o : OSV) : Prop := ∃ text, e.content = some text ∧ decode text = some o

/-- Every `.json` file inside the working directory of a local database holds an advisory, and every directory could be listed. -/
inductive AllRead (L : LoadEnv) (c : DBConfig) (offline : Bool) : Prop where
  | zip (body : Bytes) (t : Str) (es : List ZipEntry) (type : c.type = g!"zip")
      (fetched : L.fetch c.url c.workingDirectory offline = .ok body t) (unzipped : L.unzip body = some es)
      (all : ∀ e ∈ es, Inside c.workingDirectory e.name → JsonName e.name → ∃ o, Holds L.decode e o)
  | dir (path : Str) (type : c.type = g!"dir") (uri : L.parseURI c.url = some path)
      (there : ¬ Vanished (L.tree (Path.join2 (Str.trimPrefix path g!"/") c.workingDirectory)))
      (all : ¬ Unread L.decode (Path.base (Path.join2 (Str.trimPrefix path g!"/") c.workingDirectory))
        (L.tree (Path.join2 (Str.trimPrefix path g!"/") c.workingDirectory)))

end Osv.Spec
