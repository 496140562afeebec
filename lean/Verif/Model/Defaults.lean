import Verif.Model.Placement

/-!
# Constructors that fill in keyword arguments

Models the constructors `DefaultSource`, `DefaultPointing` (`marxs/missions/arcus/defaults.py`), `DetMany`, `FocalPlaneDet` (`marxs/missions/arcus/arcus.py`), `Aperture` and `HRMA`
(`marxs/missions/chandra/hrma_py.py`): the keywords that reach the constructor of the base class for keywords given by the user. Values are opaque (`PyVal`).
-/

namespace Marxs

/-- `k in kwargs`. Used for `marxs/missions/arcus/defaults.py:41-45`. -/
def Kwargs.has (kw : Kwargs) (k : String) : Bool := (kw.get? k).isSome

/-- `kwargs[k] = v`: replaces the value or adds the keyword. Used for `marxs/missions/arcus/defaults.py:41-45`. -/
def Kwargs.put (kw : Kwargs) (k : String) (v : PyVal) : Kwargs := (k, v) :: kw.pop k

/-- The loop `for k in defaults: if k not in kwargs: kwargs[k] = defaults[k]`, `marxs/missions/arcus/defaults.py:42-44,64-66`. -/
def fillDefaults (defaults kw : Kwargs) : Kwargs :=
  defaults.foldl (fun kw d => if kw.has d.1 then kw else kw.put d.1 d.2) kw

/-- `DefaultSource.__init__`, `marxs/missions/arcus/defaults.py:41-45`; `defaults` is `sourcekwargs` (lines 18-21). -/
def defaultSource (defaults kw : Kwargs) : Kwargs := fillDefaults defaults kw

/-- `DefaultPointing.__init__`, `marxs/missions/arcus/defaults.py:63-70`; `defaults` is `pointingkwargs` (lines 22-24) and `jitter` the result of reading the jitter from a file. -/
def defaultPointing (defaults : Kwargs) (jitter : Except Err PyVal) (kw : Kwargs) : Except Err Kwargs :=
  let kw := fillDefaults defaults kw
  if kw.has "jitter" then .ok kw
  else match jitter with
    | .error e => .error e
    | .ok j => .ok (kw.put "jitter" j)

/-- `Aperture.__init__`, `marxs/missions/chandra/hrma_py.py:19-25`; `rings` are the four `CircleAperture` objects. -/
def chandraAperture (rings : PyVal) (kw : Kwargs) : Kwargs :=
  let kw := if kw.has "id_col" then kw else kw.put "id_col" (.str "mirror_shell")
  if kw.has "elements" then kw else kw.put "elements" rings

/-- `HRMA.__init__`, `marxs/missions/chandra/hrma_py.py:38-50`; `f` is `NOMINAL_FOCALLENGTH`, `elements` and `keywords` the lists in the constructor. -/
def hrma (f : ℝ) (elements keywords : PyVal) (kw : Kwargs) : Kwargs :=
  (((kw.put "position" (.list [.num f, .num 0, .num 0])).put "zoom" (.list [.num 1, .num 650, .num 650])).put "elements" elements).put "keywords" keywords

/-- `FocalPlaneDet.__init__`, `marxs/missions/arcus/arcus.py:394-399`; `rot` is `xyz2zxy[:3, :3]`. -/
def focalPlaneDet (rot : M3) (kw : Kwargs) : Kwargs :=
  let kw := if !kw.has "zoom" && !kw.has "pos4d" then kw.put "zoom" (.list [.num 0.2, .num 10000, .num 10000]) else kw
  if !kw.has "orientation" && !kw.has "pos4d" then kw.put "orientation" (.mat3 rot) else kw

/-- An attribute of the object before the constructor of the base class runs: attributes of the class only. Used for `marxs/missions/arcus/arcus.py:317-326`. -/
def classAttr (attrs : Kwargs) (k : String) : Except Err PyVal :=
  match attrs.get? k with
  | some v => .ok v
  | none => .error .attributeError

/-- `DetMany.__init__`, `marxs/missions/arcus/arcus.py:317-326`; `attrs` are the attributes of the class, `conf` the configuration. The keywords of the user are not used. -/
def detMany (attrs conf _kw : Kwargs) : Except Err Kwargs :=
  match conf.get? "rowland_detector" with
  | none => .error .keyError
  | some rowland => do
    let cls ← classAttr attrs "elem_class"
    let args ← classAttr attrs "elem_args"
    let d ← classAttr attrs "d_element"
    let y ← classAttr attrs "y_range"
    .ok [("rowland", rowland), ("elem_class", cls), ("elem_args", args), ("d_element", d), ("y_range", y), ("id_num_offset", .num 1), ("id_col", .str "CCD"),
      ("guess_distance", .num (-25))]

/-- Attributes in the body of the class `DetMany`, `marxs/missions/arcus/arcus.py:315`; the base classes do not have the others either (`marxs/design/rowland.py:677-681,588-604`,
`marxs/simulator/simulator.py:327-345`). -/
def detManyAttrs : Kwargs := [("y_range", .list [.num (-400), .num 400])]

end Marxs
