import Verif.Model.TimeSeries
import Verif.Spec.Results

/-!
# What loads, hours and balancing should mean
-/

namespace Verif

/-- Load `i` is the last one of its name. -/
def LastOfName (ls : List NamedLoad) (i : ℕ) (l : NamedLoad) : Prop :=
  ls[i]? = some l ∧ ∀ j l', i < j → ls[j]? = some l' → l'.name ≠ l.name

/-- The load is one of those the user named as negative loads: its number, or anything, an underscore and its number. -/
def NamedLoad.IsNegative (neg : List Txt) (l : NamedLoad) : Prop :=
  '_' ∉ l.num ∧ ∃ n ∈ neg, n = l.num ∨ ∃ pre, n = pre ++ '_' :: l.num

/-- The phase a load is balanced on: the triplex phase if it has one. -/
def NamedLoad.onPhase (l : NamedLoad) : Txt := match l.triplex with
  | some p => p
  | none => l.phase

/-- Load `i` is the last negative load of its phase. -/
def LastNegative (neg : List Txt) (ls : List NamedLoad) (i : ℕ) (l : NamedLoad) : Prop :=
  ls[i]? = some l ∧ l.IsNegative neg ∧ ∀ j l', i < j → ls[j]? = some l' → ¬ (l'.IsNegative neg ∧ l'.onPhase = l.onPhase)

/-- Equal in everything but constant power. -/
def NamedLoad.SameBut (l l' : NamedLoad) : Prop :=
  l'.num = l.num ∧ l'.phase = l.phase ∧ l'.triplex = l.triplex ∧ l'.load.Z = l.load.Z ∧ l'.load.IP = l.load.IP ∧ l'.load.IQ = l.load.IQ

/-- Total constant power of the loads. -/
def totalLoad (ls : List NamedLoad) : ℂ := (ls.map NamedLoad.S).sum

end Verif
