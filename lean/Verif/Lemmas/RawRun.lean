import Verif.Lemmas.RawSupply
import Verif.Lemmas.Light
import Verif.Spec.Margin
import Verif.Spec.Converge
import Verif.Model.DeviceControl

/-!
# Running the loaded network of a supplied RAW case
-/

namespace Verif

variable {L : Library}

/-- Vectors that are close have close voltages. -/
theorem volt_close (hL : L.Loaded) {N : Network} (ho : N.optimization = none) {v w : ℕ → ℝ} {ε : ℝ} (hε : 0 ≤ ε) (h : Within (N.assign L).size ε v w) (r : Ref) :
    ‖(N.assign L).voltages v r - (N.assign L).voltages w r‖ ≤ 2 * ε := by
  cases r with
  | none =>
    show ‖(0 : ℂ) - 0‖ ≤ _
    simpa using by positivity
  | some k =>
    have hb := assignBuses_below N.opt N.buses 0
    have he := (placeElements_below (opt := N.opt) hL N.elements hb.2).1
    have hsz : (N.assign L).size = (placeElements L N.opt (assignBuses N.opt N.buses 0).1 (assignBuses N.opt N.buses 0).2 N.elements).2 := by
      unfold Network.assign
      simp only [ho]
    have hnode : (nodeAt (N.assign L).nodes (some k)).Below (N.assign L).size := by
      show Node.Below _ ((assignBuses N.opt N.buses 0).1.getD k Node.ground)
      rw [List.getD_eq_getElem?_getD]
      cases hk : (assignBuses N.opt N.buses 0).1[k]? with
      | none => constructor <;> intro c hc <;> simp [Node.ground] at hc
      | some b => exact (hb.2 b (List.mem_of_getElem? hk)).mono (by rw [hsz]; exact he)
    have hread : ∀ i : Idx, (∀ c, i = some c → c < (N.assign L).size) → |readIdx v i - readIdx w i| ≤ ε := fun i hi => by
      cases i with
      | none => show |(0 : ℝ) - 0| ≤ ε; simpa using hε
      | some c => exact h c (hi c rfl)
    refine (Complex.norm_le_abs_re_add_abs_im _).trans ?_
    have h1 := hread _ hnode.vr
    have h2 := hread _ hnode.vi
    have e : (N.assign L).voltages v (some k) - (N.assign L).voltages w (some k) =
        ⟨readIdx v (nodeAt (N.assign L).nodes (some k)).vr - readIdx w (nodeAt (N.assign L).nodes (some k)).vr,
          readIdx v (nodeAt (N.assign L).nodes (some k)).vi - readIdx w (nodeAt (N.assign L).nodes (some k)).vi⟩ := rfl
    rw [e]
    simp only
    linarith

/-- A network without devices as the device controller sees it: a run is one call of the solver. -/
theorem fixed_run {C : NRContext} {tx control : Bool} {vInit : ℕ → ℝ} {N : Network} {m : Stamper} {r : HomotopyResult Stamper}
    (hm : Stamper.build N.opt (N.assign L).all = .ok m)
    (hr : homotopyRun (solverRun { C with size := (N.assign L).size }) tx m vInit = .ok r) :
    (DxNet.run L C tx control vInit ⟨N.buses, N.elements.map .fixed, N.optimization, false⟩).out =
      .ok (r, ⟨N.buses, N.elements.map .fixed, N.optimization, false⟩) := by
  have hnet : (⟨N.buses, N.elements.map .fixed, N.optimization, false⟩ : DxNet).network = N := by
    simp only [DxNet.network, List.map_map]
    have : (Item.element ∘ Item.fixed) = id := rfl
    rw [this, List.map_id]
  have hsolve : DxNet.solve L C tx ⟨N.buses, N.elements.map .fixed, N.optimization, false⟩ vInit = .ok r := by
    unfold DxNet.solve
    rw [if_neg (by simp [List.any_map, Item.refuses]), hnet, hm]
    exact hr
  have hadj : ∀ v, DxNet.adjust L ⟨N.buses, N.elements.map .fixed, N.optimization, false⟩ v =
      .ok (⟨N.buses, N.elements.map .fixed, N.optimization, false⟩, false) := fun v => by
    unfold DxNet.adjust
    rw [if_neg (by simp)]
  have hloop : ∀ k, (deviceLoop (DxNet.ops L C tx) control vInit (k + 1) ⟨N.buses, N.elements.map .fixed, N.optimization, false⟩ []).out =
      .ok (r, ⟨N.buses, N.elements.map .fixed, N.optimization, false⟩) := fun k => by
    unfold deviceLoop
    rw [show (DxNet.ops L C tx).solve = DxNet.solve L C tx from rfl, hsolve]
    simp only
    split
    · rfl
    · split
      · rfl
      · rw [show (DxNet.ops L C tx).adjust = DxNet.adjust L from rfl, hadj]
        rfl
  unfold DxNet.run deviceRun
  split
  · rw [show (DxNet.ops L C tx).adjust = DxNet.adjust L from rfl, hadj]
    exact hloop 9
  · exact hloop 9

end Verif

namespace Verif.Raw

theorem impedance_unique {cz : ℤ} {z : Impedance} {S : ℝ} {Z Z' : ℂ} (h : IsImpedance cz z S Z) (h' : IsImpedance cz z S Z') : Z = Z' := by
  rcases h with ⟨rfl, h⟩ | ⟨rfl, h0, h⟩ | ⟨rfl, h0, W, h1, h2, h3, h⟩
  · rcases h' with ⟨-, h'⟩ | ⟨e, -⟩ | ⟨e, -⟩
    · rw [h, h']
    · norm_num at e
    · norm_num at e
  · rcases h' with ⟨e, -⟩ | ⟨-, -, h'⟩ | ⟨e, -⟩
    · norm_num at e
    · exact mul_right_cancel₀ (by exact_mod_cast h0) (h.trans h'.symm)
    · norm_num at e
  · rcases h' with ⟨e, -⟩ | ⟨e, -⟩ | ⟨-, -, W', h1', h2', h3', h'⟩
    · norm_num at e
    · norm_num at e
    · have hb : (1000000 * z.sbase : ℝ) ≠ 0 := mul_ne_zero (by norm_num) h0
      have hre : W.re = W'.re := mul_right_cancel₀ hb (h1.trans h1'.symm)
      have hn : Complex.normSq W = Complex.normSq W' := by rw [Complex.normSq_eq_norm_sq, Complex.normSq_eq_norm_sq, h2, h2']
      have him : W.im = W'.im := by
        rw [Complex.normSq_apply, Complex.normSq_apply, hre] at hn
        nlinarith [mul_self_nonneg (W.im - W'.im), mul_self_nonneg (W.im + W'.im), sq_abs (W.im - W'.im), (mul_self_eq_mul_self_iff.1 (by linarith : W.im * W.im = W'.im * W'.im))]
      rw [Complex.ext hre him] at h
      exact mul_right_cancel₀ (by exact_mod_cast h0) (h.trans h'.symm)

theorem powerFlow_congr {c : Case} {Z Z' : TwoRec → ℂ} {V : ℤ → ℂ} (h : c.PowerFlow Z V) (hZ : ∀ r ∈ c.two, r.Served c → Z' r = Z r) : c.PowerFlow Z' V := by
  classical
  have hnet : ∀ k, c.net Z' V k = c.net Z V k := fun k => by
    unfold Case.net
    congr 3
    refine List.map_congr_left fun r hr => ?_
    obtain ⟨h1, h2⟩ := List.mem_filter.1 hr
    rw [hZ r h1 (by simpa using h2)]
  refine ⟨fun r hr hs => ?_, fun k h1 h2 => ?_, fun k h1 h2 h3 => ?_, h.machines, h.continuous, h.swing⟩
  · rw [hZ r hr hs]; exact h.impedance r hr hs
  · rw [hnet]; exact h.active k h1 h2
  · rw [hnet]; exact h.reactive k h1 h2 h3

/-- The equations of a plain case with any impedances that are those of the records. -/
theorem power_flow_any (hL : L.Loaded) {c : Case} {o : Out} (hp : c.Plain) (h : parseRaw c = .ok o) {Z : TwoRec → ℂ}
    (hZ : ∀ r ∈ c.two, r.Served c → IsImpedance r.cz r.z12 c.sbase (Z r)) (V : ℤ → ℂ) (hV : ∀ k, c.Energised k → V k ≠ 0) :
    (∃ v, (∀ k, c.Energised k → (o.toNetwork.assign L).voltages v (some (o.pos k)) = V k) ∧ ∀ i, networkEq (o.toNetwork.assign L).all 0 v i = 0) ↔
      c.PowerFlow Z V := by
  classical
  have hl : ∀ r ∈ c.two, r.Served c → IsImpedance r.cz r.z12 c.sbase (loadedZ c r) := by
    intro r hr hs
    obtain ⟨xs, ys, -, hxs, -⟩ := C48_two_winding_once hp.distinct h
    obtain ⟨x, -, hi, hf, ht⟩ := forall₂_mem_left hxs (List.mem_filter.2 ⟨hr, by simpa using hs⟩)
    exact (xfmr_current hp hr hs hi hf ht).1
  rw [power_flow_loaded hL hp h V hV]
  exact ⟨fun k => powerFlow_congr k fun r hr hs => impedance_unique (hZ r hr hs) (hl r hr hs),
    fun k => powerFlow_congr k fun r hr hs => impedance_unique (hl r hr hs) (hZ r hr hs)⟩

theorem plain_valid {c : Case} {o : Out} (hp : c.Plain) (h : parseRaw c = .ok o) : o.toNetwork.Valid := by
  have hcl := plain_closed hp h
  have hlt : ∀ {k}, k ∈ o.buses → o.pos k < o.toNetwork.buses := fun hk => List.idxOf_lt_length_of_mem hk
  intro e he
  simp only [Out.toNetwork, List.mem_append, List.mem_map] at he
  have hr : ∀ {k}, k ∈ o.buses → Ref.Valid o.toNetwork.buses (some (o.pos k)) := fun hk => hlt hk
  have hn : Ref.Valid o.toNetwork.buses none := trivial
  rcases he with ⟨x, hx, rfl⟩ | ⟨x, hx, rfl⟩ | ⟨x, hx, rfl⟩ | ⟨x, hx, rfl⟩ | ⟨x, hx, rfl⟩ | ⟨x, hx, rfl⟩
  · exact ⟨hr (hcl.branches x hx).1, hr (hcl.branches x hx).2⟩
  · exact ⟨hr (hcl.xfmrs x hx).1, hn, hr (hcl.xfmrs x hx).2, hn⟩
  · exact hlt (hcl.slack x hx)
  · exact hlt (hcl.generators x hx)
  · exact ⟨hr (hcl.loads x hx), hn⟩
  · exact hlt (hcl.shunts x hx)

end Verif.Raw
