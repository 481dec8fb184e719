import Verif.Model.Raw
import Verif.Model.Summary

/-!
# What is printed of a RAW case
-/

namespace Verif.Raw

/-- `display` (`networkmodel.py` 58-69) for a network loaded from a RAW file: distinct names of buses, buses, lines, distinct numbers of loads, loads. A bus has the name of its record
(`data_classes.py` 69, `bus.py` 27), here given by its number. A load has the next number of a counter (`load.py` 79-80, `data_classes.py` 94, 231), which stands at `next` here; as the
text of the number is not printed, the number itself is kept. -/
def Out.summary (name : ℤ → Txt) (next : ℕ) (o : Out) : Glm.Summary :=
  ⟨(o.buses.map name).dedup.length, o.buses.length, o.branches.length, (List.range' next o.loads.length).dedup.length, o.loads.length⟩

end Verif.Raw
