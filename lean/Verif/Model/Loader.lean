import Verif.Model.TimeSeries
import Mathlib.Data.List.Infix

/-!
# Finding the network file and its reader (`/repo/src/logic/network/networkloader.py` 10-53)
-/

namespace Verif

/-- The files by their paths, with their contents (`networkloader.py` 12, 28, 32). -/
abbrev Disk := Txt → Option Txt

/-- What the network answers: the status of a first request and the content of a second one (`networkloader.py` 19, 32), or an exception. -/
structure Web where
  status : Txt → Except String ℕ
  body : Txt → Except String Txt

/-- `network_uri.split("/")[-1]` (`networkloader.py` 25). -/
def lastPart (uri : Txt) : Txt := ((uri.splitOn '/').getLast?).getD []

/-- `os.path.join(tmpdir, …)` (`networkloader.py` 25); the directory is absolute and has no slash at its end. -/
def tmpPath (tmp uri : Txt) : Txt := tmp ++ '/' :: lastPart uri

/-- `pull_network_file` (`networkloader.py` 10-34): the path of the file, and the files afterwards. The old file of that path is removed before the download (27-30);
a URL that ends in a slash names the directory itself, which cannot be written. -/
def pullFile (disk : Disk) (web : Web) (tmp uri : Txt) : Except String Txt × Disk :=
  if (disk uri).isSome then (.ok uri, disk)
  else if ¬ ("http://".toList <+: uri ∨ "https://".toList <+: uri) then (.error "Unknown file location", disk)
  else match web.status uri with
    | .error e => (.error e, disk)
    | .ok s =>
      if s ≠ 200 then (.error "Network request for network file failed.", disk)
      else if lastPart uri = [] then (.error "IsADirectoryError", disk)
      else
        let removed : Disk := Function.update disk (tmpPath tmp uri) none
        match web.body uri with
        | .error e => (.error e, removed)
        | .ok t => (.ok (tmpPath tmp uri), Function.update removed (tmpPath tmp uri) (some t))

/-- The readers (`networkloader.py` 46, 48). -/
inductive FileFormat
  | glm
  | raw
  deriving DecidableEq

/-- The choice of the reader (`networkloader.py` 45-51): `".glm" in network_file`, else `".RAW" in network_file`. -/
def readerFor (path : Txt) : Except String FileFormat :=
  if ".glm".toList <:+: path then .ok .glm
  else if ".RAW".toList <:+: path then .ok .raw
  else .error "Unknown network file format"

/-- `NetworkLoader.from_file` (`networkloader.py` 41-53): the reader chosen and the text it is given. -/
def fromFile (disk : Disk) (web : Web) (tmp uri : Txt) : Except String (FileFormat × Txt) × Disk :=
  match pullFile disk web tmp uri with
  | (.error e, d) => (.error e, d)
  | (.ok p, d) => match readerFor p with
    | .error e => (.error e, d)
    | .ok f => match d p with
      | some t => (.ok (f, t), d)
      | none => (.error "FileNotFoundError", d)

end Verif
