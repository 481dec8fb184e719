import Verif.Props.RawText

/-!
# C110, C111, C113: files the reader misreads or refuses

Each theorem reads two texts that differ in one place. The statements are about `readText`, so about what `parse_raw` is given.
-/

namespace Verif.Raw

/-- A text of lines. -/
def linesOf (ls : List String) : Txt := ls.flatMap fun l => l.toList ++ ['\n']

/-- A bus row of version 33. -/
def busLine : String := "1,'ONE', 138.0, 3, 1, 1, 1, 1.0, 0.0, 1.1, 0.9, 1.1, 0.9"

/-- The bus of this row. -/
def busRead : BusRow := ⟨1, 3, 1, 0, 138⟩

/-- Sections without records. -/
def empties (n : ℕ) : List String := List.replicate n "0 /"

/-- **C110 fails for device names with `Q`.** A FACTS device whose name starts with `Q` is taken for the end of the file: the switched shunts that follow
are lost without a message. -/
theorem C110_name_fails :
    let file (name : String) := linesOf (["0, 100.0, 33, 0, 0, 60.0", "title", "title", busLine] ++ empties 15 ++
      [name ++ ", 1, 0, 1, 0, 0, 1, 9999, 9999, 0.9, 1.1, 1, 0, 0.05, 100, 1, 0, 0, 0, 0,''", "0 /", "1, 1, 0, 1, 1.05, 0.95, 0, 100, '', 20, 1, 20", "0 /", "Q"])
    readText (file "'TORONTO'") = .ok { sbase := 100, rev := 33, buses := [busRead], slack := [1], switched := [⟨1, 1, 1, 105 / 100, 95 / 100, 20, [(1, 20), (0, 0), (0, 0), (0, 0), (0, 0), (0, 0), (0, 0), (0, 0)]⟩] } ∧
    readText (file "'QUEBEC'") = .ok { sbase := 100, rev := 33, buses := [busRead], slack := [1] } := by decide +kernel

/-- **C110 fails for terminators without a space.** `0 / END OF BUS DATA` ends the section, `0/ END OF BUS DATA` is read as a bus and refused. -/
theorem C110_terminator_fails :
    let file (stop : String) := linesOf ["0, 100.0, 33, 0, 0, 60.0", "title", "title", busLine, stop, "Q"]
    readText (file "0 / END OF BUS DATA") = .ok { sbase := 100, rev := 33, buses := [busRead], slack := [1] } ∧
    readText (file "0/ END OF BUS DATA") = .error .missing := by decide +kernel

/-- **C110 fails for blank lines.** A blank line between records raises `IndexError`. -/
theorem C110_blank_line_fails :
    readText (linesOf ["0, 100.0, 33, 0, 0, 60.0", "title", "title", "", busLine, "0 /", "Q"]) = .error .index := by decide +kernel

/-- **C110 fails for comments at the end of a record.** They are taken off bus rows, not off load rows. -/
theorem C110_comment_fails :
    let file (a b : String) := linesOf ["0, 100.0, 33, 0, 0, 60.0", "title", "title", busLine ++ a, "0 /", "1, '1', 1, 1, 1, 80, 0, 0, 0, 0, 0, 1, 1" ++ b, "0 /", "Q"]
    let read : RawFile := { sbase := 100, rev := 33, buses := [busRead], slack := [1], loads := [⟨1, ['1'], 1, 80, 0, 0, 0, 0, 0⟩] }
    readText (file "" "") = .ok read ∧ readText (file " / swing" "") = .ok read ∧ readText (file "" " / town") = .error .value := by decide +kernel

/-- **C110 fails for records that are cut short.** Fields at the end of a bus or load row cannot be left to their defaults. -/
theorem C110_short_fails :
    readText (linesOf ["0, 100.0, 33, 0, 0, 60.0", "title", "title", "1,'ONE', 138.0, 3", "0 /", "Q"]) = .error .missing ∧
    readText (linesOf ["0, 100.0, 33, 0, 0, 60.0", "title", "title", busLine, "0 /", "1, '1', 1, 1, 1, 80, 40", "0 /", "Q"]) = .error .index := by decide +kernel

/-- **C110 fails for generator rows that are cut short.** The only generator, written with 15 fields, is dropped without a message. -/
theorem C110_generator_fails :
    let file (g : String) := linesOf ["0, 100.0, 33, 0, 0, 60.0", "title", "title", busLine, "0 /", "0 /", "0 /", g, "0 /", "Q"]
    (readText (file "1, '1', 40, 0, 50, -50, 1.0, 0, 100, 0, 1, 0, 0, 1, 1, 100") >>= fun f => sortedGens f.gens) = .ok [⟨1, ['1'], 40, 0, 50, -50, 1, 1, 0, 1⟩] ∧
    (readText (file "1, '1', 40, 0, 50, -50, 1.0, 0, 100, 0, 1, 0, 0, 1, 1") >>= fun f => sortedGens f.gens) = .ok [] := by decide +kernel

/-- **C110 fails for a wind machine mode without power factor.** With 28 fields the last two are mode and power factor. With the power factor left to its
default, the share of the fourth owner is read as the mode and the mode as the power factor: a machine that is no wind machine becomes one of mode 1. -/
theorem C110_wind_fails :
    let file (g : String) := linesOf ["0, 100.0, 33, 0, 0, 60.0", "title", "title", busLine, "0 /", "0 /", "0 /",
      "1, '1', 40, 0, 50, -50, 1.0, 0, 100, 0, 1, 0, 0, 1, 1, 100, 90, 0, 1, 0.7, 2, 0.1, 3, 0.1, 4, 1.0" ++ g, "0 /", "Q"]
    (readText (file "") >>= fun f => sortedGens f.gens) = .ok [⟨1, ['1'], 40, 0, 50, -50, 1, 1, 0, 1⟩] ∧
    (readText (file ", 0, 1.0") >>= fun f => sortedGens f.gens) = .ok [⟨1, ['1'], 40, 0, 50, -50, 1, 1, 0, 1⟩] ∧
    (readText (file ", 0") >>= fun f => sortedGens f.gens) = .ok [⟨1, ['1'], 40, 0, 50, -50, 1, 1, 1, 0⟩] ∧
    (readText (file ", 0,") >>= fun f => sortedGens f.gens) = .ok [⟨1, ['1'], 40, 0, 50, -50, 1, 1, 0, 0⟩] := by decide +kernel

/-- **C110 fails for branches without a status.** A blank status, which stands for a branch in service, is refused. -/
theorem C110_branch_status_fails :
    let file (st : String) := linesOf ["0, 100.0, 33, 0, 0, 60.0", "title", "title", busLine, "2,'TWO', 138.0, 1, 1, 1, 1, 1.0, 0.0, 1.1, 0.9, 1.1, 0.9", "0 /", "0 /", "0 /", "0 /",
      "1, 2, '1', 0.01, 0.1, 0, 0, 0, 0, 0, 0, 0, 0," ++ st ++ ", 1, 0", "0 /", "Q"]
    readText (file "1") = .ok { sbase := 100, rev := 33, buses := [busRead, ⟨2, 1, 1, 0, 138⟩], slack := [1], branches := [⟨1, 2, ['1'], 1 / 100, 1 / 10, 0, 0, 0, 0, 0, 1⟩] } ∧
    readText (file "") = .error .missing := by decide +kernel

/-- A file of version 33 with the transformer whose first row starts like this. -/
def xfmrFile (start : String) : Txt := linesOf ["0, 100.0, 33, 0, 0, 60.0", "title", "title", busLine, "0 /", "0 /", "0 /", "0 /", "0 /",
  start ++ ", 1, 1, 1, 0, 0, 2, 'T', 1, 1, 1.0, 0, 1.0, 0, 1.0, 0, 1.0, ''", "0.01, 0.1, 100", "1.0, 0, 0, 0, 0, 0, 0, 0, 1.1, 0.9, 1.1, 0.9, 33, 0, 0, 0, 0", "1.0, 0", "0 /", "Q"]

/-- **C110 fails for transformers with blank fields.** A two-winding transformer has third bus 0; a blank third bus, which stands for 0, makes the reader look for a fifth row
and refuse the file. A blank circuit, which stands for `1`, is refused. -/
theorem C110_transformer_fails :
    (readText (xfmrFile "1, 2, 0, '1 '")).map RawFile.two = .ok [⟨['1'], ['2'], ['1'], ⟨1, 1, 1, 0, 0, 1⟩, 1 / 100, 1 / 10, 100, ⟨1, 0, 0, 0, 11 / 10, 9 / 10, 33⟩, 1, 0⟩] ∧
    readText (xfmrFile "1, 2, , '1 '") = .error .index ∧ readText (xfmrFile "1, 2, 0, ''") = .error .missing := by decide +kernel

/-- **C110 fails for tap control in version 34.** A winding row of version 34 has twelve ratings; the control mode and the limits of the tap are read out of the columns of
ratings. Here `COD = 1`, `RMA = 1.05`, `RMI = 0.95`, `NTP = 17` are stated, and the ratings 4, 6, 7 and 10 are read. -/
theorem C110_control_fails :
    (readText (linesOf ["0, 100.0, 34, 0, 0, 60.0", "title", "title", "0 /", busLine, "0 /", "0 /", "0 /", "0 /", "0 /", "0 /",
      "1, 2, 0, '1 ', 1, 1, 1, 0, 0, 2, 'T', 1, 1, 1.0, 0, 1.0, 0, 1.0, 0, 1.0, '', 0", "0.01, 0.1, 100",
      "1.0, 0, 0, 101, 102, 103, 104, 105, 106, 107, 108, 109, 110, 111, 112, 1, 2, 1.05, 0.95, 1.1, 0.9, 17, 0, 0, 0, 0", "1.0, 0", "0 /", "Q"])).map
        (fun f => f.two.map fun t => (t.w1.cod, t.w1.rma, t.w1.rmi, t.w1.ntp)) = .ok [(104, 106, 107, 110)] := by decide +kernel

/-- **C110 fails for comments before the end of the file.** In version 33 the row after a comment in the last section is not looked at: the `Q` is missed. -/
theorem C110_last_comment_fails :
    let file (last : List String) := linesOf (["0, 100.0, 33, 0, 0, 60.0", "title", "title", busLine] ++ empties 17 ++ last ++ ["Q"])
    readText (file []) = .ok { sbase := 100, rev := 33, buses := [busRead], slack := [1] } ∧ readText (file ["@ end"]) = .error .index := by decide +kernel

/-- **C110 fails in version 30 for shunts of buses.** The admittance `GL`, `BL` of a bus is read and lost. -/
theorem C110_bus_shunt_fails :
    let file (b : String) := linesOf ["0, 100.0", "title", "title", "1,'ONE', 138.0, 3, 0.0, " ++ b ++ ", 1, 1, 1.0, 0.0, 1", "0 /", "Q"]
    readText (file "0.0") = .ok { sbase := 100, rev := 30, buses := [busRead], slack := [1] } ∧
    readText (file "50.0") = .ok { sbase := 100, rev := 30, buses := [busRead], slack := [1] } := by decide +kernel

/-- **C111 fails for records with the same name.** Of two loads with the same bus and identifier the later one is kept, so their order matters. -/
theorem C111_names_fails :
    let load (p : String) := "1, '1', 1, 1, 1, " ++ p ++ ", 0, 0, 0, 0, 0, 1, 1"
    let file (a b : String) := linesOf ["0, 100.0, 33, 0, 0, 60.0", "title", "title", busLine, "0 /", load a, load b, "0 /", "Q"]
    (readText (file "80" "90")).map RawFile.loads = .ok [⟨1, ['1'], 1, 90, 0, 0, 0, 0, 0⟩] ∧
    (readText (file "90" "80")).map RawFile.loads = .ok [⟨1, ['1'], 1, 80, 0, 0, 0, 0, 0⟩] := by decide +kernel

end Verif.Raw
