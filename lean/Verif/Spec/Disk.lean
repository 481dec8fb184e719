import Verif.Model.Disk

/-!
# What should be on the disk after a run
-/

namespace Verif

/-- `v` and `p` are the two files for the output name `n`. -/
def FilesOf (n v p : Txt) : Prop := v = n ++ "_voltage.csv".toList ∧ p = n ++ "_power.csv".toList

/-- The disk `d'` is the disk `d` but for the two files of each name in `W`, which hold the texts of the result of this name. -/
structure DiskWritten {R : Type} (texts : R → Txt × Txt) (W : Txt → R → Prop) (d d' : OutDisk) : Prop where
  held : ∀ n r v p, W n r → FilesOf n v p → d' v = some (texts r).1 ∧ d' p = some (texts r).2
  others : ∀ q, (∀ n r v p, W n r → FilesOf n v p → q ≠ v ∧ q ≠ p) → d' q = d q

end Verif
