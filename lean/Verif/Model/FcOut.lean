import Verif.Model.Port
/-
Model of the ports of the hard IP models that show flow control credits to the user: `_run_cfg_fc_logic` and `_run_tx_fc_logic` of xilinx/us/us_model.py, xilinx/us/usp_model.py,
intel/s10/s10_model.py and intel/ptile/ptile_model.py. What is shown is a function of the flow control counters at the clock edge. All the optional signals are taken to be connected.
-/
namespace Pcie

/-- us_model.py:1381-1392: the six outputs `cfg_fc_*`. -/
structure FcOut where
  ph : Nat
  pd : Nat
  nph : Nat
  npd : Nat
  cplh : Nat
  cpld : Nat
deriving DecidableEq, Repr

/-- us_model.py:1381-1392, usp_model.py:1505-1516: one attribute of each counter, cut to the width of the output. -/
def FcOut.of (c : FcCh) (g : FcState → Nat) : FcOut :=
  { ph := g c.ph &&& 0xff, pd := g c.pd &&& 0xfff, nph := g c.nph &&& 0xff, npd := g c.npd &&& 0xfff, cplh := g c.cplh &&& 0xff, cpld := g c.cpld &&& 0xfff }

/-- us_model.py:1304-1392 `_run_cfg_fc_logic` at one clock edge, with `cfg_fc_sel` = `sel`. -/
def usFcOut (c : FcCh) (sel : Nat) : FcOut :=
  if sel = 0b000 then .of c (·.rxAvail)
  else if sel = 0b001 then .of c (·.rxAlloc)
  else if sel = 0b010 then .of c (·.rxRecv)
  else if sel = 0b011 then .of c fun _ => 0
  else if sel = 0b100 then .of c (·.txAvail)
  else if sel = 0b101 then .of c (·.txLimit)
  else if sel = 0b110 then .of c (·.txConsumed)
  else .of c fun _ => 0

/-- usp_model.py:1453-1516 `_run_cfg_fc_logic`. `FcStateData` has no attribute `rx_credits_consumed` (port.py:98-110). -/
def uspFcOut (c : FcCh) (sel : Nat) : Py FcOut :=
  if sel = 0b010 then .error "AttributeError"
  else if sel = 0b100 then .ok (.of c (·.txAvail))
  else if sel = 0b101 then .ok (.of c (·.txLimit))
  else if sel = 0b110 then .ok (.of c (·.txConsumed))
  else .ok (.of c fun _ => 0)

/-- us_model.py:1162-1173 (`width` 2), usp_model.py:1322-1333 (`width` 4): `pcie_tfc_nph_av` and `pcie_tfc_npd_av`. -/
def usTfc (_ : FcCh) (width : Nat) : Nat × Nat := if width = 2 then (0x3, 0x3) else (0xf, 0xf)

/-- s10_model.py:769-786 `_run_tx_fc_logic`: the outputs `tx_*_cdts`; the two that only L-Tile has are left out for H-Tile. -/
def s10TxCdts (ltile : Bool) (c : FcCh) : List (String × Nat) :=
  [("tx_ph_cdts", c.ph.txAvail &&& 0xff), ("tx_pd_cdts", c.pd.txAvail &&& 0xfff), ("tx_nph_cdts", c.nph.txAvail &&& 0xff), ("tx_cplh_cdts", c.cplh.txAvail &&& 0xff)] ++
    if ltile then [("tx_npd_cdts", c.npd.txAvail &&& 0xfff), ("tx_cpld_cdts", c.cpld.txAvail &&& 0xfff)] else []

/-- ptile_model.py:918-944 `_run_tx_fc_logic`: the outputs (`tx_cdts_limit`, `tx_cdts_limit_tdm_idx`) in clock cycle `n`; the counters are those at the start of that cycle. -/
def ptileCdts (n : Nat) (c : FcCh) : Nat × Nat :=
  if n % 6 = 0 then (c.ph.txLimit &&& 0xfff, 0)
  else if n % 6 = 1 then (c.nph.txLimit &&& 0xfff, 1)
  else if n % 6 = 2 then (c.cplh.txLimit &&& 0xfff, 2)
  else if n % 6 = 3 then (c.pd.txLimit &&& 0xffff, 4)
  else if n % 6 = 4 then (c.npd.txLimit &&& 0xffff, 5)
  else (c.cpld.txLimit &&& 0xffff, 6)

end Pcie
