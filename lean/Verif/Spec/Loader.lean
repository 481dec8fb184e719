import Verif.Model.Loader

/-!
# What a path says about its file
-/

namespace Verif

/-- The path ends in a dot and the extension. -/
def HasExtension (path ext : Txt) : Prop := ∃ stem, path = stem ++ '.' :: ext

/-- The formats and their extensions, in either case of letters. -/
def Announces (path : Txt) : FileFormat → Prop
  | .glm => HasExtension path "glm".toList ∨ HasExtension path "GLM".toList
  | .raw => HasExtension path "raw".toList ∨ HasExtension path "RAW".toList

/-- An address on the network. -/
def IsUrl (uri : Txt) : Prop := ∃ rest, uri = "http://".toList ++ rest ∨ uri = "https://".toList ++ rest

/-- The name after the last slash is `n`. -/
def NameAtEnd (uri n : Txt) : Prop := '/' ∉ n ∧ ∃ pre, uri = pre ++ '/' :: n

end Verif
