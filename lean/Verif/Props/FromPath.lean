import Verif.Model.FromPath
import Verif.Props.GlmInclude
import Verif.Props.ChargeSupply
import Verif.Props.RawExecute
import Verif.Props.RawText
import Verif.Props.Loader

/-!
# C151: from a path to the results
-/

namespace Verif

/-- A feeder on the disk is what the loader makes of it. -/
theorem networkFrom_glm {disk : Disk} {path t : Txt} (hd : disk path = some t) (he : HasExtension path "glm".toList) (web : Web) (tmp : Txt) (W : Glm.World) (name : ℤ → Txt)
    {g : Glm.Grid Glm.LineData} {D : DxNet} (h : feederFrom disk W path = .ok (g, D)) : networkFrom disk web tmp W name path = .ok (g.pf D) := by
  have hp : pullFile disk web tmp path = (.ok path, disk) := by rw [pullFile, if_pos (by simp [hd])]
  simp only [networkFrom, hp, readerFor_glm he, h]

/-- A case on the disk is what the loader makes of it. -/
theorem networkFrom_raw {disk : Disk} {path t : Txt} (hd : disk path = some t) (he : HasExtension path "RAW".toList) (hg : ¬ ".glm".toList <:+: path) (web : Web) (tmp : Txt)
    (W : Glm.World) (name : ℤ → Txt) {f : Raw.RawFile} {c : Raw.Case} {o : Raw.Out} (h1 : Raw.readText t = .ok f) (h2 : f.toCase = .ok c) (h3 : Raw.parseRaw c = .ok o) :
    networkFrom disk web tmp W name path = .ok (c.grid name o) := by
  have hp : pullFile disk web tmp path = (.ok path, disk) := by rw [pullFile, if_pos (by simp [hd])]
  simp only [networkFrom, hp, readerFor_raw he hg, caseFrom, hd, h1, h2, h3]

/-- **C151.** Given an address from which a file can be fetched, the network and the results are those of the same text on the disk, at the path where it was put. -/
theorem C151_fetched (L : Library) {disk : Disk} {web : Web} {uri last t : Txt} (tmp : Txt) (W : Glm.World) (name : ℤ → Txt) (hd : disk uri = none)
    (hu : "http://".toList <+: uri ∨ "https://".toList <+: uri) (hl : NameAtEnd uri last) (hne : last ≠ []) (hs : web.status uri = .ok 200) (hb : web.body uri = .ok t) :
    ∃ d : Disk, (∀ p, d p = if p = tmp ++ '/' :: last then some t else disk p) ∧
      networkFrom disk web tmp W name uri = networkFrom d web tmp W name (tmp ++ '/' :: last) ∧
      ∀ debug txStepping s solve islands voltageIslands, resultsFrom L disk web tmp W name debug txStepping s solve islands voltageIslands uri =
        resultsFrom L d web tmp W name debug txStepping s solve islands voltageIslands (tmp ++ '/' :: last) := by
  have hlast := lastPart_name hl
  let d : Disk := Function.update (Function.update disk (tmp ++ '/' :: last) none) (tmp ++ '/' :: last) (some t)
  have hp : pullFile disk web tmp uri = (.ok (tmp ++ '/' :: last), d) := by
    rw [pullFile, if_neg (by simp [hd]), if_neg (not_not.2 hu), hs]
    simp only [tmpPath, hlast, hne, hb, if_false, ne_eq, not_true_eq_false]
    rfl
  have hdp : d (tmp ++ '/' :: last) = some t := Function.update_self ..
  have hp' : pullFile d web tmp (tmp ++ '/' :: last) = (.ok (tmp ++ '/' :: last), d) := by rw [pullFile, if_pos (by simp [hdp])]
  have hn : networkFrom disk web tmp W name uri = networkFrom d web tmp W name (tmp ++ '/' :: last) := by
    unfold networkFrom
    rw [hp, hp']
  refine ⟨d, fun p => ?_, hn, fun debug txStepping s solve islands voltageIslands => by rw [resultsFrom, resultsFrom, hn]⟩
  by_cases hpp : p = tmp ++ '/' :: last
  · rw [hpp, if_pos rfl, hdp]
  · rw [if_neg hpp]
    change Function.update _ _ _ _ = _
    rw [Function.update_of_ne hpp, Function.update_of_ne hpp]

/-- A case at an address. -/
example (L : Library) (W : Glm.World) (name : ℤ → Txt) (t : Txt) : ∃ d : Disk, d "/tmp/case.RAW".toList = some t ∧
    networkFrom (fun _ => none) ⟨fun _ => .ok 200, fun _ => .ok t⟩ "/tmp".toList W name "http://a.b/case.RAW".toList =
      networkFrom d ⟨fun _ => .ok 200, fun _ => .ok t⟩ "/tmp".toList W name "/tmp/case.RAW".toList := by
  obtain ⟨d, h1, h2, -⟩ := C151_fetched L (disk := fun _ => none) (web := ⟨fun _ => .ok 200, fun _ => .ok t⟩) (uri := "http://a.b/case.RAW".toList) (last := "case.RAW".toList)
    "/tmp".toList W name rfl (.inl (by decide +kernel)) ⟨by decide +kernel, "http://a.b".toList, by decide +kernel⟩ (by decide +kernel) rfl rfl
  have e : "/tmp".toList ++ '/' :: "case.RAW".toList = "/tmp/case.RAW".toList := by decide +kernel
  rw [e] at h1 h2
  exact ⟨d, by rw [h1, if_pos rfl], h2⟩

end Verif

namespace Verif.Glm

variable {L : Library}

/-- **C151 for feeders, partial: from the path to the results.** Take a file on the disk with the extension of feeders whose rows, followed by those of the files it includes, write down the objects of a plain
feeder that is fed from its sources, one island of places rated alike, without fuses and with capacitors switched by hand. The loader makes a network of it; the feeder has voltages
without load; and if its loads have voltage then, all small enough load factors but zero make `main` return results that say success, with every place listed once, in the order of the
file, with its voltage within a given distance of voltages that are a power flow of the file. Nothing is assumed of what the reader, the builder or the solver return. Missing: what is
missing in `C149_execute_partial`, and included objects in the places where they are included (`C150_order_fails`). -/
theorem C151_feeder_partial (hL : L.Loaded) {disk : Disk} {W : World} {path t : Txt} {rows : List Txt} {ps : List (Obj ⊕ Txt)} {us : List Obj} {objs : List (Txt × Obj)} (web : Web) (tmp : Txt) (name : ℤ → Txt)
    (hd : disk path = some t) (he : HasExtension path "glm".toList) (ht : FileText t rows) (hl : Laid rows ps) (hi : Included disk ps us)
    (ho : ∀ o ∈ ps.filterMap Sum.getLeft? ++ us, Writable W o) (hf : List.Forall₂ (Filed W) (ps.filterMap Sum.getLeft? ++ us) objs) (hu : (objs.map Prod.fst).Nodup) (hs : SoundSupply objs) (hne : ownPlaces objs ≠ [])
    (hj : ∀ x ∈ ownPlaces objs, ∀ y ∈ ownPlaces objs, FileJoined objs (wiredLines objs) x.1.1 y.1.1) (hown : ∀ x ∈ ownPlaces objs, isSwing x.1.2 = true ∨ x.1.1 ∉ parentNames objs)
    (hnom : ∀ x ∈ ownPlaces objs, ∀ y ∈ ownPlaces objs, PlainJoined objs (wiredLines objs) x.1.1 y.1.1 → ∀ u w, placeVoltage x.1.2 x.2 = some u →
      placeVoltage y.1.2 y.2 = some w → |u.magnitude - w.magnitude| ≤ 19 / 2)
    (hr : LoadsRated objs) (hc : declaredFuses objs = [] ∧ ∀ d ∈ declaredCaps objs, d.obj.attr "control".toList = some "MANUAL".toList) :
    ∃ G V0, networkFrom disk web tmp W name path = .ok G ∧ ChargedFlowAt 1 (1 / 4) objs 0 V0 ∧ (LoadsLive objs V0 → LoadsOffAxes objs V0 → ∀ ε > 0, ∃ s0 > 0, ∀ s : ℝ, s ≠ 0 → |s| ≤ s0 →
      ∀ (debug txStepping : Bool) (cs vs : PFNet → List (List Txt)), (∀ G, IsIslands G.graph (cs G)) → (∀ G, IsEdgeIslands (G.graph.plainEdges G.connected) (vs G)) →
      ∃ R V, resultsFrom L disk web tmp W name debug txStepping s (fun G => idealSolve (G.net.network.assign L).size) cs vs path = .ok R ∧ R.success = true ∧
        ChargedFlowAt 1 (1 / 4) objs s V ∧
        List.Forall₂ (fun b x => (∃ y, G.buses[b.bus]? = some y ∧ y.name = x.1.1) ∧ ‖b.V - V x.1.1 x.2‖ ≤ ε) R.buses (ownPlaces objs)) := by
  have hread := C150_files hd ht hl hi ho hf hu
  obtain ⟨g, D, hg, hD⟩ := C92_lines_partial [] hs.sound hs.conductors hs.lines
  obtain ⟨V0, h0, -⟩ := C149_idle hL hs.charged hg hD
  have hfrom : feederFrom disk W path = .ok (g, D) := by simp only [feederFrom, hread, hg, hD]
  have hnet := networkFrom_glm hd he web tmp W name hfrom
  refine ⟨g.pf D, V0, hnet, h0, fun hlive hoff ε hε => ?_⟩
  obtain ⟨s0, hs0, h⟩ := C149_execute_partial hL hs.charged hg hD hne hj hown hnom hr h0 hlive hoff ε (1 / 100000) hε (by norm_num)
  refine ⟨s0, hs0, fun s h1 h2 debug tx cs vs hcs hvs => ?_⟩
  obtain ⟨R, V, e1, e2, e3, e4⟩ := h s h1 h2 (mainSettings debug tx) le_rfl (by norm_num [mainSettings]) (fun _ => hc) (cs ((g.pf D).factor s)) (vs ((g.pf D).factor s))
    (hcs ((g.pf D).factor s)) (hvs ((g.pf D).factor s))
  have e1' : execute L (mainSettings debug tx) (idealSolve ((((g.pf D).factor s).net).network.assign L).size) (cs ((g.pf D).factor s)) (vs ((g.pf D).factor s))
    ((g.pf D).factor s) = .ok (R, D.factor s s) := e1
  refine ⟨R, V, ?_, e2, e3, e4.imp fun b x hx => ⟨?_, hx.2⟩⟩
  · simp only [resultsFrom, hnet, e1']
  · obtain ⟨⟨y, hy, hy1, -⟩, -⟩ := hx
    exact ⟨y.object, by simp [Grid.pf, hy], hy1⟩

/-! ### A case -/

/-- The attributes of the objects of `chargedFeeder`. -/
def feederKeys : List Txt := ["name", "phases", "bustype", "nominal_voltage", "parent", "constant_power_A", "geometric_mean_radius", "diameter", "resistance", "rating.summer.emergency",
  "outer_diameter", "conductor_gmr", "conductor_diameter", "conductor_resistance", "neutral_gmr", "neutral_resistance", "neutral_diameter", "neutral_strands", "distance_AB",
  "distance_AE", "distance_BE", "conductor_A", "conductor_B", "spacing", "from", "to", "length", "configuration"].map String.toList

/-- A schema in which every class has them. -/
def feederWorld : World where
  schema _ := some feederKeys
  cron _ := none
  str _ := []

/-- A disk with the nodes and the load of `chargedFeeder` in a file that includes another, with its lines and what they are made of. -/
def feederDisk : Disk := fun p =>
  if p = "/data/feeder.glm".toList then some (plainText (((chargedFeeder.take 4).map Prod.snd).flatMap plainRows) ++ "#include \"lines.glm\";\r\n".toList)
  else if p = "lines.glm".toList then some (plainText (((chargedFeeder.drop 4).map Prod.snd).flatMap plainRows))
  else none

/-- What the file means. -/
theorem feederDisk_laid : ∃ t rows ps, feederDisk "/data/feeder.glm".toList = some t ∧ FileText t rows ∧ Laid rows ps ∧ Included feederDisk ps ((chargedFeeder.drop 4).map Prod.snd) ∧
    ps.filterMap Sum.getLeft? = (chargedFeeder.take 4).map Prod.snd := by
  have htext : ∀ rows : List Txt, (∀ r ∈ rows, OneRow r) → FileText (plainText rows ++ "#include \"lines.glm\";\r\n".toList) (rows ++ ["#include \"lines.glm\";".toList]) := by
    intro rows h
    induction rows with
    | nil => exact .row (r := "#include \"lines.glm\";".toList) (e := "\r\n".toList) (t := []) (by decide +kernel) (.inr (.inl rfl)) .nil
    | cons r rows ih =>
      have := FileText.row (h r List.mem_cons_self) (.inl rfl) (ih fun x hx => h x (List.mem_cons_of_mem _ hx))
      rwa [← List.append_assoc] at this
  have hinl : ∀ os : List Obj, (os.map (Sum.inl : Obj → Obj ⊕ Txt)).filterMap Sum.getLeft? = os := fun os => by
    rw [List.filterMap_map]
    exact List.filterMap_some
  have hown : ∀ (vs : List Obj) (ps : List (Obj ⊕ Txt)) (us : List Obj), Included feederDisk ps us → Included feederDisk (vs.map Sum.inl ++ ps) us := by
    intro vs ps us h
    induction vs with
    | nil => exact h
    | cons v vs ih => exact .own ih
  refine ⟨_, _, ((chargedFeeder.take 4).map Prod.snd).map Sum.inl ++ Sum.inr "lines.glm".toList :: ([] : List Obj).map Sum.inl, rfl, htext _ (by decide +kernel),
    .more (plain_written _) (by decide +kernel) ⟨" ".toList, "\"lines.glm\"".toList, ";".toList, [], by decide, by decide, by decide, by decide +kernel, .quoted, .inr rfl, by decide, rfl⟩
      (.plain .nil (by decide)), hown _ _ _ ?_, ?_⟩
  · have := Included.file (disk := feederDisk) (location := "lines.glm".toList) (ps := []) (us := []) rfl (plain_text (by decide +kernel)) (plain_written ((chargedFeeder.drop 4).map Prod.snd))
      (by decide +kernel) .nil
    rwa [List.append_nil] at this
  · rw [List.filterMap_append, hinl]
    rfl

/-- `C151_feeder_partial` on that disk: the load multiplied by a small factor, the file is read, built and solved with the settings of `main`. -/
example (hL : L.Loaded) (web : Web) (tmp : Txt) (name : ℤ → Txt) : ∃ s0 > 0, ∀ s : ℝ, s ≠ 0 → |s| ≤ s0 → ∃ cs vs R V,
    resultsFrom L feederDisk web tmp feederWorld name false false s (fun G => idealSolve (G.net.network.assign L).size) cs vs "/data/feeder.glm".toList = .ok R ∧ R.success = true ∧
    ChargedFlowAt 1 (1 / 4) chargedFeeder s V ∧ R.buses.length = 6 := by
  have hfiled : List.Forall₂ (Filed feederWorld) (chargedFeeder.map Prod.snd) chargedFeeder := by
    have h : ∀ x ∈ chargedFeeder, ("name".toList, x.1) ∈ x.2.attrs := by decide +kernel
    rw [List.forall₂_map_left_iff, List.forall₂_same]
    exact fun x hx => .named x.1 (h x hx)
  obtain ⟨t, rows, ps, q1, q2, q3, q4, q5⟩ := feederDisk_laid
  have hos : ps.filterMap Sum.getLeft? ++ (chargedFeeder.drop 4).map Prod.snd = chargedFeeder.map Prod.snd := by
    rw [q5, ← List.map_append, List.take_append_drop]
  obtain ⟨G, V0, -, h0, h⟩ := C151_feeder_partial hL (disk := feederDisk) (W := feederWorld) (path := "/data/feeder.glm".toList) web tmp name q1 ⟨"/data/feeder".toList, by decide +kernel⟩
    q2 q3 q4 (by rw [hos]; exact writableAll.writable (keys := feederKeys) (by decide +kernel) fun _ _ => rfl) (by rw [hos]; exact hfiled) (by decide +kernel)
    chargedFeeder_supply chargedFeeder_places chargedFeeder_joined chargedFeeder_own (fun x hx y hy _ => chargedFeeder_alike x hx y hy) chargedFeeder_rated chargedFeeder_manual
  obtain ⟨s0, hs0, h⟩ := h (chargedFeeder_live h0).1 (chargedFeeder_live h0).2 1 one_pos
  refine ⟨s0, hs0, fun s h1 h2 => ?_⟩
  obtain ⟨R, V, e1, e2, e3, e4⟩ := h s h1 h2 false false _ _ (fun G => (islands_exist G.buses G.connected).choose_spec) (fun G => (edgeIslands_exist (G.graph.plainEdges G.connected)).choose_spec)
  exact ⟨_, _, R, V, e1, e2, e3, e4.length_eq.trans chargedFeeder_length⟩

end Verif.Glm

namespace Verif.Raw

variable {L : Library}

/-- Scaling the loads of the network and scaling the loads of the file come to the same. -/
theorem grid_factor (c : Case) (o : Out) (name : ℤ → Txt) (s : ℝ) : (c.grid name o).factor s = (c.withLoads s).grid name (o.withLoads s) := by
  have h : (o.toNetwork.elements.map (Element.factor s s)) = (o.withLoads s).toNetwork.elements := by
    simp only [Out.toNetwork, List.map_append, List.map_map, Out.withLoads]
    rfl
  simp only [PFNet.factor, Case.grid, DxNet.factor, Out.toDx, List.map_map, ← h]
  rfl

/-- **C151 for RAW cases, partial: from the path to the results.** Take a file on the disk with the extension of cases whose text writes down a sound document. Let the case it states be
supported and fed from one swing bus, with recorded voltage magnitudes between 0 and 9 and voltages without load, with which the loads are not aligned. The loader makes a network of
it, and all small enough load factors but zero make `main` return results that say success, with every bus in service listed once, in the order of the numbers, with its voltage within a
given distance of a power flow of the file with its loads scaled. Missing: what is missing in `C110_rows_partial` and `C144_raw_partial`. -/
theorem C151_case_partial (hL : L.Loaded) {disk : Disk} {path t a b : Txt} {ts : Row} {rows : List Row} {v : ℤ} (hv : v = 32 ∨ v = 33 ∨ v = 34) {sbase : ℝ} {d : Document} (web : Web)
    (tmp : Txt) (W : Glm.World) (name : ℤ → Txt) (hd : disk path = some t) (he : HasExtension path "RAW".toList) (hg : ¬ ".glm".toList <:+: path) (ht : TextOf t ((a :: b :: ts) :: rows))
    (h : FileOf v sbase d ((a :: b :: ts) :: rows)) (hs : d.Sound v)
    (hc : ∀ c : Case, c.sbase = sbase → d.Means v c → (c.buses.map BusRec.i).Pairwise (· < ·) → c.Supported ∧ c.Supplied ∧ (∀ j k, c.Swing j → c.Swing k → j = k) ∧
      ∀ b ∈ c.buses, b.ide ≠ 4 → 0 < b.vm ∧ b.vm ≤ 9) :
    ∃ (c : Case) (G : PFNet), c.sbase = sbase ∧ d.Means v c ∧ (c.buses.map BusRec.i).Pairwise (· < ·) ∧ networkFrom disk web tmp W name path = .ok G ∧ G.buses.map GBus.name = c.online.map name ∧
      ∀ (Z : TwoRec → ℂ) (V0 : ℤ → ℂ), (∀ k, c.Energised k → V0 k ≠ 0) → (c.withLoads 0).PowerFlow Z V0 → c.OffAxes V0 → ∀ ε > 0, ∃ s0 > 0, ∀ s : ℝ, s ≠ 0 → |s| ≤ s0 →
      ∀ (debug txStepping : Bool) (cs vs : PFNet → List (List Txt)), (∀ G, IsIslands G.graph (cs G)) → (∀ G, IsEdgeIslands (G.graph.plainEdges G.connected) (vs G)) →
      ∃ R V, resultsFrom L disk web tmp W name debug txStepping s (fun G => idealSolve (G.net.network.assign L).size) cs vs path = .ok R ∧ R.success = true ∧
        (c.withLoads s).PowerFlow Z V ∧ R.buses.map BusResult.bus = List.range c.online.length ∧ ∀ b ∈ R.buses, ∀ k, c.online[b.bus]? = some k → ‖b.V - V k‖ ≤ ε := by
  obtain ⟨f, c, h1, h2, h3, h4, h5⟩ := C110_rows_partial hv h hs
  obtain ⟨q1, q2, q3, q4⟩ := hc c h3 h4 h5
  obtain ⟨o, hpar⟩ := C78_supported_loads_partial q1
  have hrt : readText t = .ok f := by simp only [readText, rowsOf_text ht, h1]
  have hnet := networkFrom_raw hd he hg web tmp W name hrt h2 hpar
  refine ⟨c, c.grid name o, h3, h4, h5, hnet, ?_, fun Z V0 hne h0 hoff ε hε => ?_⟩
  · show (c.busObjects name).map GBus.name = c.online.map name
    rw [Case.busObjects, Case.online, List.map_map, List.map_map]
    rfl
  obtain ⟨s0, hs0, hrun⟩ := C144_raw_partial hL q2 hpar q3 q4 name hne h0 hoff false ε (1 / 100000) hε (by norm_num)
  refine ⟨s0, hs0, fun s e1 e2 debug tx cs vs hcs hvs => ?_⟩
  obtain ⟨o', hp', hrun⟩ := hrun s e1 e2
  obtain rfl : o' = o.withLoads s := by
    rw [parse_withLoads q2 hpar s] at hp'
    exact (Except.ok.inj hp').symm
  have hG := grid_factor c o name s
  obtain ⟨R, V, r1, r2, r3⟩ := hrun (mainSettings debug tx) rfl rfl le_rfl (by norm_num [mainSettings]) (cs ((c.grid name o).factor s)) (vs ((c.grid name o).factor s))
    (hG ▸ hcs _) (hG ▸ hvs _)
  refine ⟨R, V, ?_, r2, r3⟩
  rw [← hG] at r1
  have hn : ((c.grid name o).factor s).net.network = (o.withLoads s).toNetwork := by rw [hG]; exact toDx_network _
  simp only [resultsFrom, hnet, hn, r1]

/-! ### A case -/

open Ex

/-- The load and the line of `lightCase` in a file. -/
def lightLoad : List Written :=
  let p := plainField
  [p "2", quotedField 0 "1 " 0, p "1", p "   1", p "   1", p "    80.000", p "    60.000", p "", p "", p "", p "", p "   1", p "1"]
def lightLine : List Written :=
  let p := plainField
  [p "1", p "    2", quotedField 0 "1 " 0, p ".5", p " .5", p "0.0", p "", p "", p "", p "", p "", p "", p "", p "1"]

/-- The lines of a file with the buses, the load, the machine and the line of `lightCase`. -/
def lightLines : List (List Written) := (feedLines.set 7 lightLoad).set 12 lightLine

/-- Their records. -/
def lightDocument : Document where
  buses := ([feedLines[3], feedLines[5]]).map fun l => l.map Written.text
  loads := [lightLoad.map Written.text]
  generators := [feedLines[10].map Written.text]
  branches := [lightLine.map Written.text]

theorem light_text : TextOf (renderText lightLines) (contents lightLines) := renderText_text (by decide +kernel)

theorem light_sound : lightDocument.Sound 33 where
  buses := fun r hr => fitsB_fits (by revert r; decide +kernel)
  loads := fun r hr => fitsB_fits (by revert r; decide +kernel)
  fixed := fun r hr => absurd hr List.not_mem_nil
  generators := fun r hr => ⟨fitsB_fits (by revert r; decide +kernel), .inl (by revert r; decide +kernel)⟩
  branches := fun r hr => fitsB_fits (by revert r; decide +kernel)
  two := fun r hr => absurd hr List.not_mem_nil
  three := fun r hr => absurd hr List.not_mem_nil
  switched := fun r hr => absurd hr List.not_mem_nil
  areas := fun r hr => absurd hr List.not_mem_nil
  twoTerminal := fun r hr => absurd hr List.not_mem_nil
  vsc := fun r hr => absurd hr List.not_mem_nil
  corrections := fun _ r hr => absurd hr List.not_mem_nil
  multiSection := fun r hr => absurd hr List.not_mem_nil
  zones := fun r hr => absurd hr List.not_mem_nil
  interarea := fun r hr => absurd hr List.not_mem_nil
  owners := fun r hr => absurd hr List.not_mem_nil
  facts := fun r hr => absurd hr List.not_mem_nil
  clean := fun r hr t ht => trimmed_of (by revert t; revert r; decide +kernel) (by revert t; revert r; decide +kernel)
  busNames := pairsB_pairwise (fun _ _ => apartB_apart) (by decide +kernel)
  loadNames := pairsB_pairwise (fun _ _ => apartB_apart) (by decide +kernel)
  fixedNames := .nil
  generatorNames := pairsB_pairwise (fun _ _ => apartB_apart) (by decide +kernel)
  branchNames := pairsB_pairwise (fun _ _ => apartB_apart) (by decide +kernel)
  twoNames := .nil
  threeNames := .nil
  switchedNames := .nil

theorem light_rows : FileOf 33 100 lightDocument (contents lightLines) := by
  have hc : Comment (feedLines[4].map Written.text) := ⟨" a comment".toList, [], by decide +kernel⟩
  have h2 : Terminator (feedLines[8].map Written.text) := .inr ⟨" END OF LOAD DATA".toList, [], by decide +kernel⟩
  have h3 : Terminator (feedLines[9].map Written.text) := .inr ⟨" END OF FIXED SHUNT DATA".toList, [], by decide +kernel⟩
  have h4 : Terminator (feedLines[11].map Written.text) := .inr ⟨" END OF GENERATOR DATA".toList, [], by decide +kernel⟩
  have h5 : Terminator (feedLines[13].map Written.text) := .inl (by decide +kernel)
  have hq : FileEnd (feedLines[14].map Written.text) := ⟨'Q', [], [], by decide +kernel, .inr rfl⟩
  have o7 : Opening (lightLoad.map Written.text) := openingB_opening (by decide +kernel)
  have o12 : Opening (lightLine.map Written.text) := openingB_opening (by decide +kernel)
  refine feed_header (body := contents (lightLines.drop 3)) ?_
  exact .sect (.item (feed_opening 3 (by decide +kernel)) (.comment hc (.item (feed_opening 5 (by decide +kernel)) (.stop feed_stop))))
    (.sect (.item o7 (.stop h2)) (.sect (.stop h3) (.sect (.item (feed_opening 10 (by decide +kernel)) (.stop h4)) (.sect (.item o12 (.stop h5))
      (.early (cs := []) (by simp) (by decide +kernel) (by simp) hq)))))

theorem light_means : lightDocument.Means 33 lightCase where
  buses := by
    refine ⟨_, .refl _, .cons ⟨int_of ?_ ?_, int_of ?_ ?_, num_of 1 ?_ ?_ ?_, num_of 0 ?_ ?_ ?_, num_of 138 ?_ ?_ ?_⟩
      (.cons ⟨int_of ?_ ?_, int_of ?_ ?_, num_blank 1 ?_ ?_, num_blank 0 ?_ ?_, num_of 138 ?_ ?_ ?_⟩ .nil)⟩
    all_goals first | decide +kernel | norm_num
  loads := by
    refine ⟨_, .refl _, .cons ⟨int_of ?_ ?_, int_of ?_ ?_, num_of 80 ?_ ?_ ?_, num_of 60 ?_ ?_ ?_, num_blank 0 ?_ ?_, num_blank 0 ?_ ?_, num_blank 0 ?_ ?_,
      num_blank 0 ?_ ?_⟩ .nil⟩
    all_goals first | decide +kernel | norm_num
  fixed := ⟨[], .refl _, .nil⟩
  generators := by
    refine ⟨_, .refl _, .cons ⟨int_of ?_ ?_, num_of 0 ?_ ?_ ?_, num_of 0 ?_ ?_ ?_, num_of 50 ?_ ?_ ?_, num_of (-50) ?_ ?_ ?_, num_of 1 ?_ ?_ ?_, int_of ?_ ?_,
      .inl ⟨?_, ?_⟩, num_blank 1 ?_ ?_⟩ .nil⟩
    all_goals first | decide +kernel | norm_num
  branches := by
    refine ⟨_, .refl _, .cons ⟨int_of ?_ ?_, int_of ?_ ?_, num_of (1 / 2) ?_ ?_ ?_, num_of (1 / 2) ?_ ?_ ?_, num_of 0 ?_ ?_ ?_, num_blank 0 ?_ ?_, num_blank 0 ?_ ?_,
      num_blank 0 ?_ ?_, num_blank 0 ?_ ?_, int_of ?_ ?_⟩ .nil⟩
    all_goals first | decide +kernel | norm_num
  two := ⟨[], .refl _, .nil⟩
  three := ⟨[], .refl _, .nil⟩
  switched := ⟨[], .refl _, .nil⟩

/-- The only case the document states, with buses in order. -/
theorem light_case {c : Case} (hb : c.sbase = 100) (h : lightDocument.Means 33 c) (ho : (c.buses.map BusRec.i).Pairwise (· < ·)) : c = lightCase := by
  obtain ⟨h1, h2, h3, h4, h5, h6, h7⟩ := C110_determined h light_means
  have h8 : c.three = [] := by
    obtain ⟨l, hl, hf⟩ := h.three
    cases hf
    exact hl.nil_eq.symm
  have h1' : c.buses = lightCase.buses := by
    refine List.Perm.eq_of_pairwise (le := fun a b => a.i < b.i) ?_ (List.pairwise_map.1 ho) ?_ h1
    · intro a b _ _ x y
      exact absurd x (lt_asymm y)
    · exact List.pairwise_map.1 (by simp [lightCase])
  obtain ⟨sbase, buses, generators, switched, fixed, loads, branches, two, three⟩ := c
  simp only at hb h1' h2 h3 h4 h5 h6 h7 h8
  subst hb h1' h8
  have e2 := h2.symm.singleton_eq
  have e3 := h3.eq_nil
  have e4 := h4.symm.singleton_eq
  have e5 := h5.symm.singleton_eq
  have e6 := h6.eq_nil
  have e7 := (h7 (by decide)).eq_nil
  rw [← e2, e3, ← e4, ← e5, e6, e7]
  rfl

theorem lightCase_one : ∀ j k, lightCase.Swing j → lightCase.Swing k → j = k := by
  have hsw : ∀ k, lightCase.Swing k → k = 1 := by
    rintro k ⟨⟨b, hb, rfl, ht⟩, -⟩
    simp only [lightCase, List.mem_cons, List.not_mem_nil, or_false] at hb
    rcases hb with rfl | rfl
    · rfl
    · simp at ht
  exact fun j k hj hk => (hsw j hj).trans (hsw k hk).symm

/-- `C151_case_partial` on a disk with the text under every path: the load multiplied by a small factor, the file is read and solved with the settings of `main`. -/
example (hL : L.Loaded) (web : Web) (tmp : Txt) (W : Glm.World) (name : ℤ → Txt) (Z : TwoRec → ℂ) : ∃ s0 > 0, ∀ s : ℝ, s ≠ 0 → |s| ≤ s0 → ∃ cs vs R V,
    resultsFrom L (fun _ => some (renderText lightLines)) web tmp W name false false s (fun G => idealSolve (G.net.network.assign L).size) cs vs "/data/light.RAW".toList = .ok R ∧
    R.success = true ∧ (lightCase.withLoads s).PowerFlow Z V ∧ R.buses.length = 2 := by
  obtain ⟨c, G, c1, c2, c3, -, -, h⟩ := C151_case_partial hL (disk := fun _ => some (renderText lightLines)) (path := "/data/light.RAW".toList) (.inr (.inl rfl)) web tmp W name rfl
    ⟨"/data/light".toList, by decide +kernel⟩ (by decide +kernel) light_text light_rows light_sound (fun c h1 h2 h3 => by
      obtain rfl := light_case h1 h2 h3
      refine ⟨lightCase_supported, lightCase_supplied, lightCase_one, fun b hb _ => ?_⟩
      simp only [lightCase, List.mem_cons, List.not_mem_nil, or_false] at hb
      rcases hb with rfl | rfl <;> norm_num)
  obtain rfl := light_case c1 c2 c3
  obtain ⟨s0, hs0, h⟩ := h Z (fun _ => 1) (fun _ _ => one_ne_zero) (lightCase_idle Z) (fun r hr _ => Or.inr (by
    simp only [lightCase, List.mem_cons, List.not_mem_nil, or_false] at hr
    subst hr
    norm_num)) 1 one_pos
  refine ⟨s0, hs0, fun s h1 h2 => ?_⟩
  obtain ⟨R, V, e1, e2, e3, e4, -⟩ := h s h1 h2 false false _ _ (fun G => (islands_exist G.buses G.connected).choose_spec) (fun G => (edgeIslands_exist (G.graph.plainEdges G.connected)).choose_spec)
  refine ⟨_, _, R, V, e1, e2, e3, ?_⟩
  have := congrArg List.length e4
  rw [List.length_map, List.length_range] at this
  rw [this]
  simp [Case.online, lightCase]

end Verif.Raw
