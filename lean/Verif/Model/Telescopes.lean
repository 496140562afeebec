import Verif.Model.Budget
import Verif.Model.ArcusCamera

/-!
# How the missions put telescopes together

Models the constructors `PerfectLynx`, `LynxForPlot`, `Lynx`, `PerfectAXIS`, `AXISForPlot`, `AXIS`, `PerfectAthecat`, `AthecatForPlot`, `PerfectArcus`, `ArcusForPlot`, `Arcus`,
`ArcusForSIXTE` and the configurations in the modules.

A telescope is a tree of objects with their classes. Objects are numbered in the order in which photons meet them. Simplifications: of each configuration only the entries are modelled on which the
structure of the telescope depends (which keys are in the dictionary, how many elements there are in each part, the Rowland torus, parameters for chirped gratings and the budget); the other entries (e.g.
efficiency tables) are taken to be present. Which positions a grid has is the subject of other modules, here only the number is used. Of the angles for chirped gratings only the
arguments of the optimizer are modelled.
-/

namespace Marxs
open Classical

/-- An object that is not a container. The number is given later. Used for `marxs/missions/mitsnl/catgrating.py:358-363`. -/
def plain (c : String) : Elt String := .leaf c 0

/-- A container. The number is given later. Used for `marxs/missions/mitsnl/catgrating.py:358-363`. -/
def group (c : String) (es : List (Elt String)) : Elt String := .cont c 0 es

mutual
/-- Give every object its own number, beginning with `n`. In Python each object has its identity. Used for `marxs/missions/lynx/lynx.py:189-205`. -/
def Elt.number {C : Type} (n : ℕ) : Elt C → Elt C
  | .leaf c _ => .leaf c n
  | .cont c _ es => .cont c n (numberElts (n + 1) es)
/-- the same for a list. Used for `marxs/missions/lynx/lynx.py:189-205`. -/
def numberElts {C : Type} (n : ℕ) : List (Elt C) → List (Elt C)
  | [] => []
  | e :: es => e.number n :: numberElts (n + e.idents.length) es
end

/-- `CATL1L2Stack`, `marxs/missions/mitsnl/catgrating.py:358-363`. -/
def catStackElt : Elt String :=
  group "CATL1L2Stack" [plain "NonParallelCATGrating", plain "QualityFactor", plain "L1", plain "L2Abs", plain "L2Diffraction"]

/-- Entries of `conf['gas_kwargs']`: the number of positions for gratings, and what is placed there (`'elem_class'`), `marxs/missions/lynx/lynx.py:67-85`. -/
structure GasConf where
  positions : ℕ
  elem : Elt String

/-- Configuration of Lynx (`marxs/missions/lynx/lynx.py:48-86`), AXIS (`marxs/missions/AXIS/AXIS.py:49-98`) and Athena (`marxs/missions/athena/athecat.py:46-103`). `none` for keys that are not in the
dictionary. `shells`: rows of `'metashellgeometry'` or number of SPOs. -/
structure TelConf where
  shells : ℕ
  gas : Option GasConf
  ccds : ℕ
  rowland : Torus
  chirpEnergy : Option ℝ
  chirpOrder : Option ℝ
  budget : Option (List (BudgetRow String))

/-- What `chirp_gratings` sets on a grating: the grating constant is optimized for this order and energy, so that photons are focused on a circle of this torus, `marxs/design/bendgratings.py:167-192`,
`marxs/missions/lynx/lynx.py:201-205`. -/
structure ChirpFor where
  order : ℝ
  energy : ℝ
  circle : Torus

/-- A telescope: its parts, what has been set on them (`own`: chirp of a grating), and the torus on which gratings and CCDs are. Used for `marxs/missions/lynx/lynx.py:189-205`. -/
structure Telescope where
  tree : Elt String
  state : ℕ → Align (Option ChirpFor)
  torus : Torus

/-- `MetaShellAperture.__init__`, `marxs/missions/lynx/mirror.py:14-34`: an index error (line 32) if there are no shells. -/
def metaShellApertureElts (n : ℕ) : Except Err (Elt String) :=
  if n = 0 then .error .indexError else .ok (group "MetaShellAperture" (List.replicate n (plain "CircleAperture")))

/-- `MetaShell.__init__`, `marxs/missions/lynx/mirror.py:37-56, 80-86`. -/
def metaShellElt : Elt String :=
  group "MetaShell" [group "MetaShellMirror" [plain "PerfectLens", plain "RadialMirrorScatter"], plain "MetaShellEfficiency"]

/-- `LynxGAS`, `marxs/missions/lynx/lynx.py:111-124`, and `GAS` of Athena, `marxs/missions/athena/athecat.py:126-141`. -/
def gasElt (cls : String) (g : GasConf) : Elt String := group cls (List.replicate g.positions g.elem)

/-- `RowlandDetArray`, `marxs/missions/lynx/lynx.py:135-138`, `marxs/missions/AXIS/AXIS.py:115-124`, `marxs/missions/athena/athecat.py:152-155`. -/
def detArrayElt (n : ℕ) : Elt String := group "RowlandDetArray" (List.replicate n (plain "FlatDetector"))

/-- `FiltersAndQE`, `marxs/missions/arcus/arcus.py:298-316`: one filter for each entry of `filterlist`. -/
def filtersElt : Elt String := group "FiltersAndQE" (List.replicate 5 (plain "GlobalEnergyFilter"))

/-- `if ('chirp_energy' in conf) and ('chirp_order' in conf)`, `marxs/missions/lynx/lynx.py:199-205`, `marxs/missions/AXIS/AXIS.py:205-211`, `marxs/missions/athena/athecat.py:216-222`. The three missions
look for different classes `cls`. `circle` is the torus of the module variable `detcirc`. -/
def chirpStep (cls : String) (circle : Torus) (conf : TelConf) (fresh : ℕ → Align (Option ChirpFor)) (tree : Elt String) : Except Err (ℕ → Align (Option ChirpFor)) :=
  match conf.chirpEnergy, conf.chirpOrder with
  | some en, some o =>
    match conf.gas with
    | none => .error .keyError
    | some _ =>
      let gratings := tree.elementsOfClass (fun c => c == cls) false
      .ok (fun i => if i ∈ gratings.map Elt.ident then { fresh i with own := some ⟨o, en, circle⟩ } else fresh i)
  | _, _ => .ok fresh

/-! ## Lynx -/

/-- `PerfectLynx.add_detectors`, `marxs/missions/lynx/lynx.py:162-183`. -/
def lynxDetectorsElts (conf : TelConf) : List (Elt String) :=
  [detArrayElt conf.ccds, plain "ProjectOntoPlane", plain "Propagator", plain "CircularDetector", plain "ProjectOntoPlane", plain "Propagator", plain "FlatDetector", plain "Propagator", plain "FlatDetector"]

/-- `LynxForPlot.add_detectors`, `marxs/missions/lynx/lynx.py:208-214`. -/
def lynxPlotDetectors (conf : TelConf) : List (Elt String) := [detArrayElt conf.ccds, plain "FlatDetector"]

/-- `add_rowland_to_conf`, `marxs/missions/lynx/lynx.py:89-96`: torus from the entries of the configuration. -/
noncomputable def rowlandOf (f blaze alphafac betafac : ℝ) : Torus := designTiltedTorus f (alphafac * blaze) (betafac * blaze)

/-- Torus of `detcirc` of Lynx, which is made once, for the default configuration, `marxs/missions/lynx/lynx.py:57-59, 140-146`. -/
noncomputable def lynxCircle : Torus := rowlandOf 9600 (npDeg2rad 1.6) 2.2 4.4

/-- `PerfectLynx.__init__`, `marxs/missions/lynx/lynx.py:189-205`; `name` is the class of the new object, `dets` its method `add_detectors`. -/
noncomputable def perfectLynx (name : String) (dets : TelConf → List (Elt String)) (fresh : ℕ → Align (Option ChirpFor)) (conf : TelConf) : Except Err Telescope :=
  match metaShellApertureElts conf.shells with
  | .error e => .error e
  | .ok aper =>
    match conf.gas with
    | none => .error .keyError
    | some g =>
      let tree := (group name ([aper, metaShellElt] ++ [gasElt "LynxGAS" g, plain "catsupportbars"] ++ [plain "GlobalEnergyFilter"] ++ dets conf ++ [plain "TagVersion"])).number 0
      match chirpStep "CATGrating" lynxCircle conf fresh tree with
      | .error e => .error e
      | .ok s => .ok ⟨tree, s, conf.rowland⟩

/-- Classes derived from `Parallel`: they have the method `generate_elements` that the functions for misalignments need. Used for `marxs/missions/lynx/lynx.py:220-227`. -/
def isParallelClass (c : String) : Bool :=
  ["LynxGAS", "GAS", "RowlandDetArray", "SPOChannelMirror", "CATfromMechanical", "CATWindow", "DetCamera", "FourSidedBoom"].contains c

/-- The loop over the budget of a telescope that was made without misalignments: `conf['alignmentbudget']` is a `KeyError` if it is not there, `marxs/missions/lynx/lynx.py:220-227`,
`marxs/missions/AXIS/AXIS.py:226-233`, `marxs/missions/arcus/arcus.py:476-485`. -/
noncomputable def misalign (fresh : ℕ → Align (Option ChirpFor)) (z : ℕ → ℝ) (budget : Option (List (BudgetRow String))) (t : Telescope) : Except Err Telescope :=
  match budget with
  | none => .error .keyError
  | some rows =>
    match alignTelescope isParallelClass fresh z t.tree rows (t.state, 0) with
    | .error e => .error e
    | .ok s => .ok { t with state := s.1 }

/-- `Lynx.__init__`, `marxs/missions/lynx/lynx.py:217-227`. -/
noncomputable def lynx (fresh : ℕ → Align (Option ChirpFor)) (z : ℕ → ℝ) (conf : TelConf) : Except Err Telescope :=
  match perfectLynx "Lynx" lynxDetectorsElts fresh conf with
  | .error e => .error e
  | .ok t => misalign fresh z conf.budget t

/-- `align_requirement_in`, `marxs/missions/lynx/lynx.py:262-271`. -/
noncomputable def lynxBudgetIn : List (BudgetRow String) :=
  [⟨"LynxGAS", "global", [1, 0.5, 0.5, npDeg2rad 0.01, npDeg2rad 0.01, npDeg2rad 0.01], none, "CAT structure to mirrors"⟩,
   ⟨"LynxGAS", "individual", [0.1, 0.25, 0.25, npDeg2rad 0.1, npDeg2rad 0.2, npDeg2rad 0.1], none, "individual CAT gratings structure"⟩,
   ⟨"RowlandDetArray", "global", [0.1, 1, 3, npDeg2rad 0.5, npDeg2rad 1, npDeg2rad 0.01], none, "Camera to front assembly"⟩]

/-- `conf` of Lynx after line 96: all entries but the budget, `marxs/missions/lynx/lynx.py:48-96`. -/
noncomputable def lynxConfStart (shells gratings ccds : ℕ) : TelConf :=
  ⟨shells, some ⟨gratings, catStackElt⟩, ccds, rowlandOf 9600 (npDeg2rad 1.6) 2.2 4.4, none, none, none⟩

/-- `conf_5050`: a copy made at this point, with another size (and thus number) of gratings, `marxs/missions/lynx/lynx.py:98-99`. -/
noncomputable def lynxConf5050 (shells gratings ccds : ℕ) : TelConf := lynxConfStart shells gratings ccds

/-- `conf_chirp`: also a copy made at this point, `marxs/missions/lynx/lynx.py:101-106`. -/
noncomputable def lynxConfChirp (shells gratings ccds : ℕ) : TelConf :=
  { lynxConfStart shells gratings ccds with chirpEnergy := some 0.6, chirpOrder := some (-5.4) }

/-- `conf` of Lynx at the end of the module, `marxs/missions/lynx/lynx.py:273-276`. -/
noncomputable def lynxConf (shells gratings ccds : ℕ) : TelConf :=
  { lynxConfStart shells gratings ccds with budget := some (reformatBudget (fun l => l) (some 0.8) (fun _ => 0) 0 lynxBudgetIn).1 }

/-! ## AXIS -/

/-- `PerfectAXIS.add_detectors`, `marxs/missions/AXIS/AXIS.py:172-189`. -/
def axisDetectorsElts (conf : TelConf) : List (Elt String) :=
  [detArrayElt conf.ccds, plain "FlatDetector", plain "ProjectOntoPlane", plain "Propagator", plain "CircularDetector", plain "ProjectOntoPlane", plain "Propagator", plain "FlatDetector"]

/-- `AXISForPlot.add_detectors`, `marxs/missions/AXIS/AXIS.py:214-220`. -/
def axisPlotDetectors (conf : TelConf) : List (Elt String) := [detArrayElt conf.ccds, plain "FlatDetector"]

/-- Torus of `detcirc` of AXIS, `marxs/missions/AXIS/AXIS.py:60-64, 134-138`. -/
noncomputable def axisCircle : Torus := rowlandOf 8600 (npDeg2rad 1.6) 2.2 4.4

/-- `PerfectAXIS.__init__`, `marxs/missions/AXIS/AXIS.py:156-166, 194-211`. -/
noncomputable def perfectAxis (name : String) (dets : TelConf → List (Elt String)) (fresh : ℕ → Align (Option ChirpFor)) (gratings : Bool) (conf : TelConf) : Except Err Telescope :=
  match metaShellApertureElts conf.shells with
  | .error e => .error e
  | .ok aper =>
    match (if gratings then
        match conf.gas with
        | none => .error .keyError
        | some g => .ok [gasElt "LynxGAS" g, plain "catsupportbars"]
      else .ok [] : Except Err (List (Elt String))) with
    | .error e => .error e
    | .ok gas =>
      let tree := (group name ([aper, plain "PerfectLensSegment", plain "MirrorGeometricScaling", plain "RadialMirrorScatter"] ++ gas ++ [filtersElt] ++ dets conf ++ [plain "TagVersion"])).number 0
      match chirpStep "NonParallelCATGrating" axisCircle conf fresh tree with
      | .error e => .error e
      | .ok s => .ok ⟨tree, s, conf.rowland⟩

/-- `AXIS.__init__`, `marxs/missions/AXIS/AXIS.py:223-233`. -/
noncomputable def axis (fresh : ℕ → Align (Option ChirpFor)) (z : ℕ → ℝ) (gratings : Bool) (conf : TelConf) : Except Err Telescope :=
  match perfectAxis "AXIS" axisDetectorsElts fresh gratings conf with
  | .error e => .error e
  | .ok t => misalign fresh z conf.budget t

/-- `conf` of AXIS, `marxs/missions/AXIS/AXIS.py:49-101`; no budget is added to it. -/
noncomputable def axisConf (shells gratings ccds : ℕ) : TelConf :=
  ⟨shells, some ⟨gratings, catStackElt⟩, ccds, rowlandOf 8600 (npDeg2rad 1.6) 2.2 4.4, none, none, none⟩

/-- `conf_6060` of AXIS, `marxs/missions/AXIS/AXIS.py:103-104`. -/
noncomputable def axisConf6060 (shells gratings ccds : ℕ) : TelConf := axisConf shells gratings ccds

/-- `conf_chirp` of AXIS, `marxs/missions/AXIS/AXIS.py:106-111`. -/
noncomputable def axisConfChirp (shells gratings ccds : ℕ) : TelConf :=
  { axisConf shells gratings ccds with chirpEnergy := some 0.6, chirpOrder := some (-5.4) }

/-! ## Athena -/

/-- `SimpleSPOs` of Athena, `marxs/missions/athena/spo.py:148-166`. -/
def athenaSpos (n : ℕ) : Elt String :=
  group "SimpleSPOs" [group "SPOChannelMirror" (List.replicate n (plain "PerfectLens")), plain "ScatterPerChannel", plain "spomounting", plain "GlobalEnergyFilter", plain "GlobalEnergyFilter"]

/-- `PerfectAthecat.add_detectors`, `marxs/missions/athena/athecat.py:182-198`. -/
def athenaDetectorsElts (conf : TelConf) : List (Elt String) :=
  [detArrayElt conf.ccds, plain "ProjectOntoPlane", plain "Propagator", plain "CircularDetector", plain "ProjectOntoPlane", plain "Propagator", plain "FlatDetector", plain "Propagator", plain "FlatDetector"]

/-- `AthecatForPlot.add_detectors`, `marxs/missions/athena/athecat.py:225-228`. -/
def athenaPlotDetectors (conf : TelConf) : List (Elt String) := [detArrayElt conf.ccds, plain "FlatDetector"]

/-- `add_rowland_to_conf` of Athena, where the optical axis is the z-axis, `marxs/missions/athena/athecat.py:106-115`. -/
noncomputable def athenaRowlandOf (f blaze alphafac betafac : ℝ) : Torus :=
  { rowlandOf f blaze alphafac betafac with pos4d := xyz2zxy * (rowlandOf f blaze alphafac betafac).pos4d }

/-- Torus of `detcirc` of Athena, `marxs/missions/athena/athecat.py:47-51, 160-163`. -/
noncomputable def athenaCircle : Torus := athenaRowlandOf 11600 (npDeg2rad 1.6) 2.2 4.4

/-- `PerfectAthecat.__init__`, `marxs/missions/athena/athecat.py:204-222`. The aperture is a single circle (`spo.aperture`). -/
noncomputable def perfectAthecat (name : String) (dets : TelConf → List (Elt String)) (fresh : ℕ → Align (Option ChirpFor)) (conf : TelConf) : Except Err Telescope :=
  let gas := match conf.gas with
    | none => []
    | some g => [gasElt "GAS" g]
  let tree := (group name ([plain "CircleAperture", athenaSpos conf.shells] ++ gas ++ [filtersElt] ++ dets conf ++ [plain "TagVersion"])).number 0
  match chirpStep "CATGrating" athenaCircle conf fresh tree with
  | .error e => .error e
  | .ok s => .ok ⟨tree, s, conf.rowland⟩

/-- `conf` of Athena, `marxs/missions/athena/athecat.py:46-117`. -/
noncomputable def athenaConf (spos gratings ccds : ℕ) : TelConf :=
  ⟨spos, some ⟨gratings, catStackElt⟩, ccds, athenaRowlandOf 11600 (npDeg2rad 1.6) 2.2 4.4, none, none, none⟩

/-- `conf_chirp` of Athena, `marxs/missions/athena/athecat.py:120-125`. -/
noncomputable def athenaConfChirp (spos gratings ccds : ℕ) : TelConf :=
  { athenaConf spos gratings ccds with chirpEnergy := some 0.6, chirpOrder := some (-5.4) }

/-! ## Arcus -/

/-- Configuration of Arcus, `marxs/missions/arcus/arcus.py:37-120`: `optAx` are the keys of `conf['pos_opt_ax']`, `spos` the number of SPOs of a channel, `windows` the number of gratings in each window of a channel
(from the file for the petals), `nCcds` is `conf['n_CCDs']`, `rods` the number of rods of the boom. -/
structure ArcusConf where
  optAx : List String
  spos : ℕ
  windows : String → List ℕ
  nCcds : ℕ
  rods : ℕ
  rowlandDetector : Torus
  budget : Option (List (BudgetRow String))

/-- `'1' in chan`, `'2' in chan`. Used for `marxs/missions/arcus/arcus.py:205-222`. -/
def hasChar (c : Char) (chan : String) : Bool := chan.toList.contains c

/-- Body of the loop over channels, `marxs/missions/arcus/arcus.py:205-222`. -/
def channelAperture (conf : ArcusConf) (chan : String) : Except Err (Elt String) :=
  if chan ∉ conf.optAx then .error .keyError
  else if hasChar '1' chan ∨ hasChar '2' chan then .ok (plain "RectangleAperture")
  else .error .valueError

/-- `Aperture.__init__`, `marxs/missions/arcus/arcus.py:179-224`: one aperture per channel. -/
def arcusApertureElts (conf : ArcusConf) (channels : List String) : Except Err (Elt String) :=
  match channels.mapM (channelAperture conf) with
  | .error e => .error e
  | .ok l => .ok (group "Aperture" l)

/-- Keys of `id_num_offset`, `marxs/missions/arcus/utils.py:14-17`. -/
def knownChannels : List String := ["1", "2", "1m", "2m"]

/-- Body of the loop over channels, `marxs/missions/arcus/arcus.py:233-249`. -/
def channelSpos (conf : ArcusConf) (chan : String) : Except Err (List (Elt String)) :=
  if chan ∉ conf.optAx then .error .keyError
  else if chan ∉ knownChannels then .error .keyError
  else .ok [group "SPOChannelMirror" (List.replicate conf.spos (plain "PerfectLens")), plain "ScatterPerChannel"]

/-- `SimpleSPOs.__init__` of Arcus, `marxs/missions/arcus/arcus.py:227-262`. -/
def arcusSpos (conf : ArcusConf) (channels : List String) : Except Err (Elt String) :=
  match channels.mapM (channelSpos conf) with
  | .error e => .error e
  | .ok l => .ok (group "SimpleSPOs" (l.flatten ++ [plain "spomounting", plain "GlobalEnergyFilter", plain "GlobalEnergyFilter"]))

/-- `CATfromMechanical` with its windows and gratings, `marxs/missions/arcus/ralfgrating.py:22-114`. -/
def petalElt (windows : List ℕ) : Elt String :=
  group "CATfromMechanical" (windows.map fun n => group "CATWindow" (List.replicate n catStackElt))

/-- Body of the loop over channels, `marxs/missions/arcus/arcus.py:268-275`. -/
def channelGratings (conf : ArcusConf) (chan : String) : Except Err (Elt String) :=
  if chan ∉ conf.optAx then .error .keyError
  else if chan ∉ knownChannels then .error .keyError
  else .ok (petalElt (conf.windows chan))

/-- `CATGratings.__init__`, `marxs/missions/arcus/arcus.py:265-280`. -/
def arcusGratings (conf : ArcusConf) (channels : List String) : Except Err (Elt String) :=
  match channels.mapM (channelGratings conf) with
  | .error e => .error e
  | .ok l => .ok (group "CATGratings" (l ++ [plain "catsupportbars"]))

/-- `DetCamera.__init__`, `marxs/missions/arcus/arcus.py:368-398`: 16 CCDs, which has to be the number in the configuration. -/
def arcusCamera (conf : ArcusConf) : Except Err (Elt String) :=
  if conf.nCcds = 16 then .ok (group "DetCamera" (List.replicate 16 (plain "FlatDetector"))) else .error .assertionError

/-- `PerfectArcus.add_detectors`, `marxs/missions/arcus/arcus.py:427-455`. -/
def arcusDetectorsElts (conf : ArcusConf) : Except Err (List (Elt String)) :=
  match arcusCamera conf with
  | .error e => .error e
  | .ok cam => .ok [plain "CircularDetector", plain "ProjectOntoPlane", plain "Propagator", cam, plain "ProjectOntoPlane", plain "FocalPlaneDet"]

/-- `ArcusForPlot.add_detectors`, `marxs/missions/arcus/arcus.py:497-507`. -/
def arcusPlotDetectors (conf : ArcusConf) : Except Err (List (Elt String)) :=
  match arcusCamera conf with
  | .error e => .error e
  | .ok cam => .ok [cam]

/-- `ArcusForSIXTE.add_detectors`, `marxs/missions/arcus/arcus.py:513-514`. -/
def arcusSixteDetectors (_ : ArcusConf) : Except Err (List (Elt String)) := .ok [plain "FocalPlaneDet"]

/-- `PerfectArcus.add_boom`, `marxs/missions/arcus/arcus.py:418-425`: no boom. -/
def noBoom (_ : ArcusConf) : List (Elt String) := []

/-- `ArcusForPlot.add_boom`, `marxs/missions/arcus/arcus.py:493-495`. -/
def plotBoom (conf : ArcusConf) : List (Elt String) := [group "FourSidedBoom" (List.replicate conf.rods (plain "Rod"))]

/-- Class of an Arcus telescope: the attributes and methods that the derived classes change, `marxs/missions/arcus/arcus.py:404-416`. `filters = false` if `filter_and_qe_class` is `None`. -/
structure ArcusKind where
  name : String
  filters : Bool
  boom : ArcusConf → List (Elt String)
  dets : ArcusConf → Except Err (List (Elt String))

/-- `PerfectArcus`, `marxs/missions/arcus/arcus.py:402-469`. -/
def kindPerfectArcus : ArcusKind := ⟨"PerfectArcus", true, noBoom, arcusDetectorsElts⟩
/-- `Arcus`, `marxs/missions/arcus/arcus.py:472-485`. -/
def kindArcus : ArcusKind := ⟨"Arcus", true, noBoom, arcusDetectorsElts⟩
/-- `ArcusForPlot`, `marxs/missions/arcus/arcus.py:488-507`. -/
def kindArcusForPlot : ArcusKind := ⟨"ArcusForPlot", true, plotBoom, arcusPlotDetectors⟩
/-- `ArcusForSIXTE`, `marxs/missions/arcus/arcus.py:510-514`. -/
def kindArcusForSixte : ArcusKind := ⟨"ArcusForSIXTE", false, noBoom, arcusSixteDetectors⟩

/-- `PerfectArcus.__init__`, `marxs/missions/arcus/arcus.py:457-469`. -/
def perfectArcus (k : ArcusKind) (fresh : ℕ → Align (Option ChirpFor)) (conf : ArcusConf) (channels : List String) : Except Err Telescope := do
  let aper ← arcusApertureElts conf channels
  let spo ← arcusSpos conf channels
  let cat ← arcusGratings conf channels
  let dets ← k.dets conf
  return ⟨(group k.name ([aper, spo, cat] ++ (if k.filters then [filtersElt] else []) ++ k.boom conf ++ dets ++ [plain "TagVersion"])).number 0, fresh, conf.rowlandDetector⟩

/-- `Arcus.__init__`, which is inherited by `ArcusForSIXTE`, `marxs/missions/arcus/arcus.py:472-485`. -/
noncomputable def arcus (k : ArcusKind) (fresh : ℕ → Align (Option ChirpFor)) (z : ℕ → ℝ) (conf : ArcusConf) (channels : List String) : Except Err Telescope :=
  match perfectArcus k fresh conf channels with
  | .error e => .error e
  | .ok t => misalign fresh z conf.budget t

/-- `align_requirement_smith`, `marxs/missions/arcus/arcus.py:522-541`. -/
noncomputable def arcusBudgetIn : List (BudgetRow String) :=
  [⟨"SPOChannelMirror", "individual", [20, 100, 500, 300, 300, 10], none, "individual SPO in petal"⟩,
   ⟨"CATfromMechanical", "global", [1000, 1000, 1000, 300, 300, 600], none, "CAT petal to SPO petal"⟩,
   ⟨"CATfromMechanical", "individual", [1000, 1000, 200, 300, 180, 300], none, "CAT windows to CAT petal"⟩,
   ⟨"CATWindow", "individual", [1000, 1000, 200, 300, 180, 300], none, "individual CAT to window"⟩,
   ⟨"DetCamera", "global", [5000, 2000, 1000, 180, 180, 180], none, "Camera to front assembly"⟩]

/-- `defaultconf['alignmentbudget']`, `marxs/missions/arcus/arcus.py:544-547`. -/
noncomputable def arcusBudget : List (BudgetRow String) := (reformatBudget randallUnits (some 0.8) (fun _ => 0) 0 arcusBudgetIn).1

end Marxs
