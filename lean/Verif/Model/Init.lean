import Verif.Model.Table
import Mathlib.Logic.Function.Basic

/-!
# Making elements: what happens to keyword arguments

All elements are made with keyword arguments. The constructor of a class takes the keywords that it knows out of the
dictionary (`kwargs.pop`) and hands the rest to the next class in the method resolution order; the last one,
`MarxsElement.__init__`, refuses what is left. Modelled are the keywords and where the values end up; the values
themselves (their type, their default, checks of single values) are part of other models.
-/

namespace Marxs

open Classical

/-- Names of keywords. Python names are `elem_pos` for `elemPos` and so on; `other` stands for all other names. Used for `marxs/base/base.py:85-86`. -/
inductive Key where
  | name | idNum | idCol | preprocessSteps | postprocessSteps | elements | keywords
  | geometry | pos4d | position | orientation | zoom | rInner | phi | phiLim
  | idNumOffset | elemClass | elemArgs | elemPos | posSpec | normalSpec | parallelSpec | distance
  | focallength | dCenterOpticalAxis | reflectivityInterpolator
  | orderSelector | transmission | d | grooveAngle | filterfunc | pixsize | ignorePixelWarning | tabWidth
  | reflFile | testedPolarization | inplanescatter | perpplanescatter | scatter
  | energy | flux | polarization | geomarea | coords | radialDistribution | funcPar | aOuter | aInner | sigma | size
  | sourcePos | halfOpening | direction | roll | referenceTransform | jitter
  | bigR | smallR | rowland | guessDistance | dElement | optimizeAxis | yRange | zRange | radius
  | qualityfactor | l1Dims | l2Dims | l1OrderSelector | dBlazeMm | blazeCenter
  | other (n : ℕ)
  deriving DecidableEq

/-- Classes of elements. Used for `marxs/base/base.py:85-86`. -/
inductive Cls where
  | marxsElement | simulationSequenceElement | baseContainer | sequence | parallel | parallelCalculated | propagator
  | baseAperture | opticalElement | flatOpticalElement | flatStack | flatAperture | rectangleAperture | circleAperture
  | multiAperture | perfectLens | thinLens | flatGrating | catGrating | globalEnergyFilter | energyFilter
  | flatDetector | circularDetector | ccdRedistNormal | baffle | flatBrewsterMirror | multiLayerEfficiency
  | multiLayerMirror | radialMirrorScatter | randomGaussianScatter
  | source | astroSource | pointSource | radialDistributionSource | sphericalDiskSource | diskSource | gaussSource
  | symbolFSource | farLabPointSource | labPointSourceCone | pointingModel | fixedPointing | jitterPointing
  | rowlandTorus | elementsOnTorus | rectangularGrid | circularMeshGrid | gratingArrayStructure
  | qualityFactor | l1 | l2Abs | l2Diffraction | nonParallelCATGrating | catL1L2Stack
  deriving DecidableEq

/-- Classes of geometries, `marxs/math/geometry.py` (`FinitePlane` takes the same keywords as `Geometry`). Used for `marxs/math/geometry.py:290-292`. -/
inductive Geo where
  | plain | rectangleHole | circularHole | cylinder
  deriving DecidableEq

/-- What is given for `geometry=`: an instance of a geometry, a class of geometries, or something that is no class at
all. (Classes that are no geometries are not modelled.). Used for `marxs/optics/base.py:83-87`. -/
inductive GeomArg where
  | inst
  | cls (g : Geo)
  | other
  deriving DecidableEq

/-- Where a value comes from: given by the user, or set by the class (its default or something it calculated). Used for `marxs/base/base.py:85-86`. -/
inductive Src (V : Type) where
  | given (v : V)
  | byClass
  deriving DecidableEq

/-- Dictionary of keywords, and the attributes of the new object. Used for `marxs/base/base.py:331-332`. -/
structure InitState (V : Type) where
  kw : Key → Option (Src V)
  obj : Key → Src V

/-- One statement of a constructor. Used for `marxs/base/base.py:331-332`. -/
inductive BaseOp where
  /-- `self.k = kwargs.pop('k')` with the error if it is missing, or with a default (`none`) -/
  | pop (k : Key) (miss : Option Err)
  /-- `if 'k' in kwargs: self.k = kwargs.pop('k')` -/
  | popIf (k : Key)
  /-- `kwargs['k'] = ...` -/
  | set (k : Key)
  /-- `if 'k' not in kwargs: kwargs['k'] = ...` -/
  | setDefault (k : Key)
  /-- `super().__init__(k=..., **kwargs)` -/
  | give (k : Key)
  /-- the test for `pos4d` and other keywords in `_parse_position_keywords` -/
  | posClash
  /-- raise an error -/
  | fail (e : Err)
  deriving DecidableEq

/-- Statements, and the one that makes a geometry. Used for `marxs/base/base.py:85-86`. -/
inductive InitOp where
  | base (o : BaseOp)
  | geom (dflt : Geo)
  deriving DecidableEq

variable {V : Type}

/-- Effect of a statement. Keyword `pos4d` with other keywords for the place: `marxs/base/base.py:331-332`; names given twice
in a call are a `TypeError` in Python. -/
noncomputable def BaseOp.run (o : BaseOp) (s : InitState V) : Except Err (InitState V) :=
  match o with
  | .pop k miss =>
    match s.kw k with
    | some v => .ok ⟨Function.update s.kw k none, Function.update s.obj k v⟩
    | none =>
      match miss with
      | some e => .error e
      | none => .ok { s with obj := Function.update s.obj k .byClass }
  | .popIf k =>
    match s.kw k with
    | some v => .ok ⟨Function.update s.kw k none, Function.update s.obj k v⟩
    | none => .ok s
  | .set k => .ok { s with kw := Function.update s.kw k (some .byClass) }
  | .setDefault k =>
    match s.kw k with
    | some _ => .ok s
    | none => .ok { s with kw := Function.update s.kw k (some .byClass) }
  | .give k =>
    match s.kw k with
    | some _ => .error .typeError
    | none => .ok { s with kw := Function.update s.kw k (some .byClass) }
  | .posClash =>
    if (s.kw .pos4d).isSome ∧ ((s.kw .position).isSome ∨ (s.kw .orientation).isSome ∨ (s.kw .zoom).isSome)
    then .error .valueError else .ok s
  | .fail e => .error e

/-- Statements one after the other. Used for `marxs/base/base.py:85-86`. -/
noncomputable def runBase : List BaseOp → InitState V → Except Err (InitState V)
  | [], s => .ok s
  | o :: os, s =>
    match o.run s with
    | .error e => .error e
    | .ok s' => runBase os s'

/-- Keywords of the shape: `r_inner`, `marxs/math/geometry.py:290-292`; `phi` and `r_inner`, 346-356; `phi_lim`,
418-421. -/
def shapeOps : Geo → List BaseOp
  | .plain => []
  | .rectangleHole => [.pop .rInner none]
  | .circularHole => [.pop .phi none, .pop .rInner none]
  | .cylinder => [.pop .phiLim none]

/-- Making the geometry, `marxs/optics/base.py:83-87` and `marxs/simulator/simulator.py:322-326` with
`Geometry.__init__` (`marxs/math/geometry.py:99-103`) and `_parse_position_keywords` (`marxs/base/base.py:318-336`).
Instances leave all other keywords alone. Anything that is no class is a `TypeError` of `issubclass`. If `pos4d` is given,
the other keywords for the place are not taken from the dictionary, but then they are not in it. Whether the numbers
describe a valid place is part of C67. -/
def geomOps : GeomArg → List BaseOp
  | .inst => [.pop .geometry none]
  | .cls g => .pop .geometry none :: shapeOps g ++
      [.posClash, .pop .pos4d none, .pop .position none, .pop .orientation none, .pop .zoom none]
  | .other => [.fail .typeError]

/-- What is given for `geometry` at this moment; the default is a class. Used for `marxs/base/base.py:85-86`. -/
def geomArg (kind : V → GeomArg) (dflt : Geo) (s : InitState V) : GeomArg :=
  match s.kw .geometry with
  | none => .cls dflt
  | some .byClass => .cls dflt
  | some (.given v) => kind v

/-- Statements of all constructors one after the other. Used for `marxs/base/base.py:85-86`. -/
noncomputable def runInit (kind : V → GeomArg) : List InitOp → InitState V → Except Err (InitState V)
  | [], s => .ok s
  | .base o :: os, s =>
    match o.run s with
    | .error e => .error e
    | .ok s' => runInit kind os s'
  | .geom dflt :: os, s =>
    match runBase (geomOps (geomArg kind dflt s)) s with
    | .error e => .error e
    | .ok s' => runInit kind os s'

/-- Base classes as in the `class` statements. `BaseAperture` and `MarxsElement` are derived from `object`.
`RowlandTorus` is also a `Geometry`, whose constructor it calls by name. Used for `marxs/base/base.py:85-86`. -/
def Cls.bases : Cls → List Cls
  | .marxsElement => []                                     -- marxs/base/base.py:67
  | .simulationSequenceElement => [.marxsElement]           -- marxs/base/base.py:194
  | .baseContainer => [.simulationSequenceElement]          -- marxs/simulator/simulator.py:26
  | .sequence => [.baseContainer]                           -- marxs/simulator/simulator.py:145
  | .parallel => [.baseContainer]                           -- marxs/simulator/simulator.py:206
  | .parallelCalculated => [.parallel]                      -- marxs/simulator/simulator.py:443
  | .propagator => [.simulationSequenceElement]             -- marxs/simulator/simulator.py:620
  | .baseAperture => []                                     -- marxs/optics/aperture.py:12
  | .opticalElement => [.simulationSequenceElement]         -- marxs/optics/base.py:54
  | .flatOpticalElement => [.opticalElement]                -- marxs/optics/base.py:214
  | .flatStack => [.flatOpticalElement, .baseContainer]     -- marxs/optics/base.py:218
  | .flatAperture => [.baseAperture, .flatOpticalElement]   -- marxs/optics/aperture.py:39
  | .rectangleAperture => [.flatAperture]                   -- marxs/optics/aperture.py:85
  | .circleAperture => [.flatAperture]                      -- marxs/optics/aperture.py:103
  | .multiAperture => [.baseAperture, .baseContainer]       -- marxs/optics/aperture.py:155
  | .perfectLens => [.flatOpticalElement]                   -- marxs/optics/mirror.py:11
  | .thinLens => [.flatOpticalElement]                      -- marxs/optics/mirror.py:85
  | .flatGrating => [.flatOpticalElement]                   -- marxs/optics/grating.py:99
  | .catGrating => [.flatGrating]                           -- marxs/optics/grating.py:280
  | .globalEnergyFilter => [.marxsElement]                  -- marxs/optics/filter.py:10
  | .energyFilter => [.flatOpticalElement]                  -- marxs/optics/filter.py:56
  | .flatDetector => [.flatOpticalElement]                  -- marxs/optics/detector.py:18
  | .circularDetector => [.opticalElement]                  -- marxs/optics/detector.py:78
  | .ccdRedistNormal => [.flatOpticalElement]               -- marxs/optics/detector.py:121
  | .baffle => [.flatOpticalElement]                        -- marxs/optics/baffles.py:9
  | .flatBrewsterMirror => [.flatOpticalElement]            -- marxs/optics/multiLayerMirror.py:9
  | .multiLayerEfficiency => [.flatOpticalElement]          -- marxs/optics/multiLayerMirror.py:94
  | .multiLayerMirror => [.flatStack]                       -- marxs/optics/multiLayerMirror.py:173
  | .radialMirrorScatter => [.flatOpticalElement]           -- marxs/optics/scatter.py:24
  | .randomGaussianScatter => [.flatOpticalElement]         -- marxs/optics/scatter.py:80
  | .source => [.simulationSequenceElement]                 -- marxs/source/basesources.py:85
  | .astroSource => [.source]                               -- marxs/source/basesources.py:282
  | .pointSource => [.astroSource]                          -- marxs/source/basesources.py:332
  | .radialDistributionSource => [.astroSource]             -- marxs/source/basesources.py:351
  | .sphericalDiskSource => [.radialDistributionSource]     -- marxs/source/basesources.py:394
  | .diskSource => [.radialDistributionSource]              -- marxs/source/basesources.py:428
  | .gaussSource => [.astroSource]                          -- marxs/source/basesources.py:451
  | .symbolFSource => [.astroSource]                        -- marxs/source/basesources.py:489
  | .farLabPointSource => [.source, .flatOpticalElement]    -- marxs/source/labSource.py:13
  | .labPointSourceCone => [.source]                        -- marxs/source/labSource.py:60
  | .pointingModel => [.simulationSequenceElement]          -- marxs/source/pointing.py:12
  | .fixedPointing => [.pointingModel]                      -- marxs/source/pointing.py:45
  | .jitterPointing => [.fixedPointing]                     -- marxs/source/pointing.py:176
  | .rowlandTorus => [.marxsElement]                        -- marxs/design/rowland.py:78
  | .elementsOnTorus => [.parallelCalculated, .opticalElement]  -- marxs/design/rowland.py:545
  | .rectangularGrid => [.elementsOnTorus]                  -- marxs/design/rowland.py:645
  | .circularMeshGrid => [.elementsOnTorus]                 -- marxs/design/rowland.py:701
  | .gratingArrayStructure => [.elementsOnTorus]            -- marxs/design/rowland.py:756
  | .qualityFactor => [.flatOpticalElement]                 -- marxs/missions/mitsnl/catgrating.py:147
  | .l1 => [.catGrating]                                    -- marxs/missions/mitsnl/catgrating.py:171
  | .l2Abs => [.flatOpticalElement]                         -- marxs/missions/mitsnl/catgrating.py:218
  | .l2Diffraction => [.randomGaussianScatter]              -- marxs/missions/mitsnl/catgrating.py:257
  | .nonParallelCATGrating => [.catGrating]                 -- marxs/missions/mitsnl/catgrating.py:281
  | .catL1L2Stack => [.flatStack]                           -- marxs/missions/mitsnl/catgrating.py:328

/-- Merge step of the method resolution order of Python (C3): the first head that is in no tail is next. With fuel, because
the lists get shorter, but Lean does not see it. Used for `marxs/base/base.py:85-86`. -/
def c3merge : ℕ → List (List Cls) → List Cls
  | 0, _ => []
  | n + 1, ls =>
    let ls := ls.filter (· ≠ [])
    match (ls.filterMap List.head?).find? fun h => ls.all fun l => !l.tail.contains h with
    | none => []
    | some h => h :: c3merge n (ls.map fun l => if l.head? = some h then l.tail else l)

/-- Method resolution order of a class (Python: `cls.__mro__`). Fuel as above. Used for `marxs/base/base.py:85-86`. -/
def mroFuel : ℕ → Cls → List Cls
  | 0, _ => []
  | n + 1, c => c :: c3merge 40 (c.bases.map (mroFuel n) ++ [c.bases])

/-- Method resolution order of a class. Used for `marxs/base/base.py:85-86`. -/
def Cls.mro (c : Cls) : List Cls := mroFuel 10 c

/-- Attribute `default_geometry`: `FinitePlane` (`marxs/optics/base.py:74`), holes for apertures
(`marxs/optics/aperture.py:90`, `127`), cylinder for the curved detector (`marxs/optics/detector.py:108`). -/
def Cls.defaultGeometry : Cls → Geo
  | .rectangleAperture => .rectangleHole
  | .circleAperture => .circularHole
  | .circularDetector => .cylinder
  | _ => .plain

/-- `hasattr(self, 'scatter')` for `marxs/optics/scatter.py:99-107`: `L2Diffraction` defines the method `scatter`
(`marxs/missions/mitsnl/catgrating.py:273-278`). -/
def Cls.hasScatter : Cls → Bool
  | .l2Diffraction => true
  | _ => false

/-- `__init__` of one class for an object of class `c`, up to the call of `super().__init__(**kwargs)`; what comes after it
does not use keywords. Parameters in the signature count as keywords (`TypeError` if missing). Used for `marxs/base/base.py:85-86`. -/
def ownInit (c : Cls) : Cls → List InitOp
  -- marxs/base/base.py:78-87 (what is left is refused in `construct`)
  | .marxsElement => [.base (.pop .name none)]
  -- marxs/base/base.py:242-247
  | .simulationSequenceElement => [.base (.pop .idNum none), .base (.popIf .idCol)]
  -- marxs/simulator/simulator.py:34-40
  | .baseContainer => [.base (.pop .preprocessSteps none), .base (.pop .postprocessSteps none)]
  -- marxs/simulator/simulator.py:201-203
  | .sequence => [.base (.pop .elements (some .keyError))]
  -- marxs/simulator/simulator.py:321-354
  | .parallel => [.geom .plain, .base (.pop .idNumOffset none), .base (.pop .elemClass (some .keyError)),
      .base (.pop .elemArgs none), .base (.pop .elemPos (some .keyError))]
  -- marxs/simulator/simulator.py:487-492
  | .parallelCalculated => [.base (.pop .posSpec (some .keyError)), .base (.pop .normalSpec (some .keyError)),
      .base (.pop .parallelSpec (some .keyError)), .base (.set .elemPos)]
  -- marxs/simulator/simulator.py:621-637
  | .propagator => [.base (.pop .distance (some .keyError))]
  -- marxs/optics/base.py:81-89
  | .opticalElement => [.geom c.defaultGeometry]
  -- marxs/optics/base.py:250-253
  | .flatStack => [.base (.pop .elements (some .keyError)), .base (.pop .keywords (some .keyError))]
  -- marxs/optics/aperture.py:187-191
  | .multiAperture => [.base (.pop .elements (some .keyError)), .base (.pop .idCol none), .base (.pop .idNumOffset none)]
  -- marxs/optics/mirror.py:44-51
  | .perfectLens => [.base (.pop .focallength (some .keyError)), .base (.pop .dCenterOpticalAxis none),
      .base (.pop .reflectivityInterpolator none)]
  -- marxs/optics/mirror.py:126-128
  | .thinLens => [.base (.pop .focallength (some .keyError))]
  -- marxs/optics/grating.py:174-182
  | .flatGrating => [.base (.pop .orderSelector (some .keyError)), .base (.pop .transmission none),
      .base (.pop .d (some .valueError)), .base (.pop .grooveAngle none)]
  -- marxs/optics/filter.py:44-46
  | .globalEnergyFilter => [.base (.pop .filterfunc (some .keyError))]
  -- marxs/optics/filter.py:86-88
  | .energyFilter => [.base (.pop .filterfunc (some .keyError))]
  -- marxs/optics/detector.py:59-61
  | .flatDetector => [.base (.pop .pixsize none), .base (.pop .ignorePixelWarning none)]
  -- marxs/optics/detector.py:110-112
  | .circularDetector => [.base (.pop .pixsize none)]
  -- marxs/optics/detector.py:161-165
  | .ccdRedistNormal => [.base (.pop .tabWidth (some .keyError))]
  -- marxs/optics/multiLayerMirror.py:127-130
  | .multiLayerEfficiency => [.base (.pop .reflFile (some .keyError)), .base (.pop .testedPolarization (some .keyError))]
  -- marxs/optics/multiLayerMirror.py:174-179
  | .multiLayerMirror => [.base (.pop .reflFile (some .keyError)), .base (.pop .testedPolarization (some .keyError)),
      .base (.give .elements), .base (.give .keywords)]
  -- marxs/optics/scatter.py:44-47
  | .radialMirrorScatter => [.base (.pop .inplanescatter (some .keyError)), .base (.pop .perpplanescatter none)]
  -- marxs/optics/scatter.py:99-107
  | .randomGaussianScatter => [.base (.pop .scatter (if c.hasScatter then none else some .valueError))]
  -- marxs/source/basesources.py:156-163
  | .source => [.base (.pop .energy none), .base (.pop .flux none), .base (.pop .polarization none),
      .base (.pop .geomarea none)]
  -- marxs/source/basesources.py:293-302
  | .astroSource => [.base (.pop .coords (some .keyError))]
  -- marxs/source/basesources.py:369-372
  | .radialDistributionSource => [.base (.pop .radialDistribution (some .keyError)), .base (.pop .funcPar none)]
  -- marxs/source/basesources.py:409-413
  | .sphericalDiskSource => [.base (.pop .aOuter (some .keyError)), .base (.pop .aInner none), .base (.set .funcPar),
      .base (.set .radialDistribution)]
  -- marxs/source/basesources.py:443-448
  | .diskSource => [.base (.pop .aOuter (some .keyError)), .base (.pop .aInner none), .base (.set .funcPar),
      .base (.set .radialDistribution)]
  -- marxs/source/basesources.py:463-465
  | .gaussSource => [.base (.pop .sigma (some .keyError))]
  -- marxs/source/basesources.py:502-504
  | .symbolFSource => [.base (.pop .size none)]
  -- marxs/source/labSource.py:33-37
  | .farLabPointSource => [.base (.pop .sourcePos (some .typeError)), .base (.setDefault .flux), .base (.give .geomarea)]
  -- marxs/source/labSource.py:82-92
  | .labPointSourceCone => [.base (.pop .position none), .base (.pop .halfOpening none), .base (.pop .direction none),
      .base (.setDefault .flux), .base (.give .geomarea)]
  -- marxs/source/pointing.py:86-94
  | .fixedPointing => [.base (.pop .coords (some .keyError)), .base (.pop .roll none),
      .base (.pop .referenceTransform none)]
  -- marxs/source/pointing.py:192-194
  | .jitterPointing => [.base (.pop .jitter (some .keyError))]
  -- marxs/design/rowland.py:100-105 (a plain `Geometry`, keyword `geometry` is not known here)
  | .rowlandTorus => [.base (.pop .bigR (some .typeError)), .base (.pop .smallR (some .typeError)), .base .posClash,
      .base (.pop .pos4d none), .base (.pop .position none), .base (.pop .orientation none), .base (.pop .zoom none)]
  -- marxs/design/rowland.py:586-604
  | .elementsOnTorus => [.base (.pop .rowland (some .keyError)), .base (.pop .guessDistance none),
      .base (.pop .dElement (some .keyError)), .base (.pop .optimizeAxis none), .base (.pop .idCol none),
      .base (.setDefault .normalSpec), .base (.setDefault .parallelSpec), .base (.set .posSpec)]
  -- marxs/design/rowland.py:677-681
  | .rectangularGrid => [.base (.pop .yRange (some .keyError)), .base (.pop .zRange none)]
  -- marxs/design/rowland.py:721-723
  | .circularMeshGrid => [.base (.pop .radius (some .keyError))]
  -- marxs/design/rowland.py:787-790
  | .gratingArrayStructure => [.base (.pop .phi none), .base (.pop .radius (some .keyError))]
  -- marxs/missions/mitsnl/catgrating.py:155-158
  | .qualityFactor => [.base (.pop .qualityfactor none)]
  -- marxs/missions/mitsnl/catgrating.py:187-196
  | .l1 => [.base (.pop .l1Dims none), .base (.set .d)]
  -- marxs/missions/mitsnl/catgrating.py:232-237
  | .l2Abs => [.base (.pop .l2Dims none)]
  -- marxs/missions/mitsnl/catgrating.py:268-271
  | .l2Diffraction => [.base (.pop .l2Dims none)]
  -- marxs/missions/mitsnl/catgrating.py:300-303
  | .nonParallelCATGrating => [.base (.pop .dBlazeMm none), .base (.pop .blazeCenter none)]
  -- marxs/missions/mitsnl/catgrating.py:354-375
  | .catL1L2Stack => [.base (.pop .l1Dims none), .base (.pop .l2Dims none), .base (.pop .l1OrderSelector none),
      .base (.pop .qualityfactor none), .base (.set .elements), .base (.pop .grooveAngle none),
      .base (.pop .orderSelector (some .keyError)), .base (.pop .d none), .base (.set .keywords)]
  -- classes without a constructor, or with one that only calls the next
  | _ => []

/-- All statements that are run for an object of this class. Used for `marxs/base/base.py:85-86`. -/
def Cls.initOps (c : Cls) : List InitOp := c.mro.flatMap (ownInit c)

/-- Make an object: `cls(**args)`. Keywords that nobody took are a `ValueError`, `marxs/base/base.py:85-86`.
`BaseAperture` has no constructor; keywords are a `TypeError` of `object`. -/
noncomputable def construct (kind : V → GeomArg) (c : Cls) (args : Key → Option V) : Except Err (Key → Src V) :=
  match runInit kind c.initOps ⟨fun k => (args k).map .given, fun _ => .byClass⟩ with
  | .error e => .error e
  | .ok s =>
    if ∃ k, (s.kw k).isSome then .error (if c = .baseAperture then .typeError else .valueError)
    else .ok s.obj

end Marxs
