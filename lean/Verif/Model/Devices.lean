import Verif.Model.Segment

/-!
# Device equations

The symbolic Lagrangian segments declared at module level in `/repo/src/models/components/*.py` and
`/repo/src/models/optimization/*.py`, and the numeric constants the device classes compute for them.
-/

namespace Verif.Devices

open Ex Verif.Sym

instance : Coe Sym Ex := ⟨Ex.sym⟩

/-- A symbol as an expression (a sympy `Symbol` used in a formula). -/
local prefix:max "§" => Ex.sym

/-- `variables = Vr_from, Vi_from, Vr_to, Vi_to` (`line.py` 15, `load.py` 18). -/
def terminals : List Sym := [VrFrom, ViFrom, VrTo, ViTo]

/-- `Vr = Vr_from - Vr_to` (`load.py` 20, `generator.py` 13, `slack.py` 14). -/
def Vr : Ex := §VrFrom - §VrTo

/-- `Vi = Vi_from - Vi_to` (`load.py` 21, `generator.py` 14, `slack.py` 15). -/
def Vi : Ex := §ViFrom - §ViTo

/-! ### Admittance branches, `/repo/src/models/components/line.py` -/

/-- `kcl_r` for admittance `G + jB` (`line.py` 20, 33). -/
def admittanceKclR (g b : Ex) : Ex := g * §VrFrom - g * §VrTo - b * §ViFrom + b * §ViTo

/-- `kcl_i` for admittance `G + jB` (`line.py` 21, 34). -/
def admittanceKclI (g b : Ex) : Ex := g * §ViFrom - g * §ViTo + b * §VrFrom - b * §VrTo

/-- `G = G_orig + TX_LARGE_G * G_orig * tx_factor` (`line.py` 10, 17). -/
def lineG : Ex := §G + Ex.num 20 * §G * §txFactor

/-- `B = B_orig + TX_LARGE_B * B_orig * tx_factor` (`line.py` 11, 18). -/
def lineB : Ex := §B + Ex.num 20 * §B * §txFactor

/-- `G = G_orig * (1 - tx_factor)` (`line.py` 30). -/
def shuntG : Ex := §G * (Ex.num 1 - §txFactor)

/-- `B = B_orig * (1 - tx_factor)` (`line.py` 31). -/
def shuntB : Ex := §B * (Ex.num 1 - §txFactor)

/-- Arguments of `line_lh` (`line.py` 14-23). -/
def lineArgs : TwoTerminalArgs :=
  { vars := terminals, constants := [G, B, txFactor]
    kclRFrom := some (admittanceKclR lineG lineB), kclIFrom := some (admittanceKclI lineG lineB) }

/-- Arguments of `shunt_lh` (`line.py` 30-36). -/
def shuntArgs : TwoTerminalArgs :=
  { vars := terminals, constants := [G, B, txFactor]
    kclRFrom := some (admittanceKclR shuntG shuntB), kclIFrom := some (admittanceKclI shuntG shuntB) }

/-! ### Constant power and constant current, `/repo/src/models/components/load.py` -/

/-- `kcl_r = (P*Vr + Q*Vi)/(Vr**2 + Vi**2)` (`load.py` 23, `generator.py` 16). -/
def pqKclR : Ex := (§P * Vr + §Q * Vi) / (Ex.pow Vr 2 + Ex.pow Vi 2)

/-- `kcl_i = (P*Vi - Q*Vr)/(Vr**2 + Vi**2)` (`load.py` 24, `generator.py` 17). -/
def pqKclI : Ex := (§P * Vi - §Q * Vr) / (Ex.pow Vr 2 + Ex.pow Vi 2)

/-- Arguments of `lh_pq` (`load.py` 17-26). -/
def pqArgs : TwoTerminalArgs :=
  { vars := terminals, constants := [P, Q], kclRFrom := some pqKclR, kclIFrom := some pqKclI }

/-- Arguments of `lh_Ic` (`load.py` 29-34). -/
def icArgs : TwoTerminalArgs :=
  { vars := terminals, constants := [IP, IQ], kclRFrom := some §IP, kclIFrom := some §IQ }

/-! ### Generator, slack, voltage source -/

/-- `F_Q = Vset**2 - Vr**2 - Vi**2` (`generator.py` 18). -/
def genFQ : Ex := Ex.pow §Vset 2 - Ex.pow Vr 2 - Ex.pow Vi 2

/-- Arguments of the generator segment (`generator.py` 9-20). -/
def genArgs : TwoTerminalArgs :=
  { vars := terminals ++ [Q], constants := [P, Vset], kclRFrom := some pqKclR, kclIFrom := some pqKclI
    equalities := [genFQ] }

/-- Arguments of the slack segment (`slack.py` 9-22). -/
def slackArgs : TwoTerminalArgs :=
  { vars := terminals ++ [ISr, ISi], constants := [Vrset, Viset]
    kclRFrom := some §ISr, kclIFrom := some §ISi, equalities := [Vr - §Vrset, Vi - §Viset] }

/-- Arguments of the voltage source segment (`voltagesource.py` 8-20). -/
def vsArgs : TwoTerminalArgs :=
  { vars := terminals ++ [Ir, Ii], constants := [VrSet, ViSet]
    kclRFrom := some §Ir, kclIFrom := some §Ii
    equalities := [§VrSet - (§VrFrom - §VrTo), §ViSet - (§ViFrom - §ViTo)] }

/-! ### Transformers -/

/-- `np.dot(duals, eqns)` (`transformer.py` 50, `center_tap_transformer.py` 36). -/
def dot : List Sym → List Ex → Ex
  | d :: ds, e :: es => §d * e + dot ds es
  | _, _ => Ex.num 0

/-- `scaled_tr = tr + (1 - tr) * tx_factor` (`transformer.py` 17, `center_tap_transformer.py` 15). -/
def scaledTr : Ex := §tr + (Ex.num 1 - §tr) * §txFactor

/-- `scaled_angle = ang - ang * tx_factor` (`transformer.py` 18). -/
def scaledAngle : Ex := §ang - §ang * §txFactor

/-- `scaled_trcos` (`transformer.py` 20). -/
def trCos : Ex := scaledTr * Ex.cos scaledAngle

/-- `scaled_trsin` (`transformer.py` 21). -/
def trSin : Ex := scaledTr * Ex.sin scaledAngle

/-- `secondary_current_r` (`transformer.py` 23). -/
def secR : Ex := (-trCos) * §IrPrim - trSin * §IiPrim

/-- `secondary_current_i` (`transformer.py` 24). -/
def secI : Ex := (-trCos) * §IiPrim + trSin * §IrPrim

/-- `eqns` of the transformer (`transformer.py` 26-48). -/
def xfmrEqns : List Ex :=
  let Vrp := §VrPriPos - §VrPriNeg
  let Vip := §ViPriPos - §ViPriNeg
  let Vrs := §VrSecPos - §VrSecNeg
  let Vis := §ViSecPos - §ViSecNeg
  [ §IrPrim, §IiPrim, -§IrPrim, -§IiPrim,
    Vrp - trCos * Vrs + trSin * Vis,
    Vip - trCos * Vis - trSin * Vrs,
    secR, secI, -secR, -secI ]

/-- `primals` (`transformer.py` 14). -/
def xfmrPrimals : List Sym :=
  [VrPriPos, ViPriPos, VrPriNeg, ViPriNeg, IrPrim, IiPrim, VrSecPos, ViSecPos, VrSecNeg, ViSecNeg]

/-- `duals` (`transformer.py` 15). -/
def xfmrDuals : List Sym :=
  [LrPriPos, LiPriPos, LrPriNeg, LiPriNeg, LirPrim, LiiPrim, LrSecPos, LiSecPos, LrSecNeg, LiSecNeg]

/-- `xfrmr_lh` (`transformer.py` 50-52). -/
def xfmr : Segment :=
  { lagrange := dot xfmrDuals xfmrEqns, constants := [tr, ang, txFactor], primals := xfmrPrimals, duals := xfmrDuals }

/-- `eqns` of the center-tap transformer (`center_tap_transformer.py` 23-34). -/
def ctEqns : List Ex :=
  let inv := Ex.num 1 / scaledTr
  [ inv * (-§IrL1 + §IrL2), inv * (-§IiL1 + §IiL2),
    §VrL1 - inv * §VrPri, §ViL1 - inv * §ViPri, §IrL1, §IiL1,
    §VrL2 + inv * §VrPri, §ViL2 + inv * §ViPri, §IrL2, §IiL2 ]

/-- `primals` (`center_tap_transformer.py` 12). -/
def ctPrimals : List Sym := [VrPri, ViPri, IrL1, IiL1, VrL1, ViL1, IrL2, IiL2, VrL2, ViL2]

/-- `duals` (`center_tap_transformer.py` 13). -/
def ctDuals : List Sym := [LrPri, LiPri, LirL1, LiiL1, LrL1, LiL1, LirL2, LiiL2, LrL2, LiL2]

/-- `center_tap_xfmr_lh` (`center_tap_transformer.py` 36-38). -/
def centerTap : Segment :=
  { lagrange := dot ctDuals ctEqns, constants := [tr, txFactor], primals := ctPrimals, duals := ctDuals }

/-! ### Infeasibility segments -/

/-- `lh` of `L2infeasibility.py` 34-40. -/
def l2 : Segment :=
  { lagrange := Ex.pow §Iir 2 + Ex.pow §Iii 2 + §Iir * §LVr + §Iii * §LVi
    constants := [], primals := [Iir, Iii], duals := [LVr, LVi] }

/-- `lh` of `L1infeasibility.py` 34-43. -/
def l1 : Segment :=
  { lagrange := §IirPlus + §IiiPlus + §IirMinus + §IiiMinus
      - §LVr * (§IirPlus - §IirMinus) - §LVi * (§IiiPlus - §IiiMinus)
      + §muVrPlus * §IirPlus + §muVrMinus * §IirMinus
      + §muViPlus * §IiiPlus + §muViMinus * §IiiMinus
    constants := [], primals := [VrBus, ViBus, IirPlus, IiiPlus, IirMinus, IiiMinus]
    duals := [LVr, LVi, muVrPlus, muViPlus, muVrMinus, muViMinus] }

end Verif.Devices
