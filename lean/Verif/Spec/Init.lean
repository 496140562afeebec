import Verif.Model.Init

/-!
# Specification for C162: keywords of the constructors

Tables of the keywords that are documented for each class (in its own docstring or in the docstring of the classes that it is
derived from), written down from the documentation and independent of the code of the constructors.
-/

namespace Marxs

/-- Keywords of all elements that process photons. -/
def elementKeys : List Key := [.name, .idNum, .idCol]
/-- Keywords of all containers. -/
def containerKeys : List Key := [.preprocessSteps, .postprocessSteps] ++ elementKeys
/-- Keywords of all sources. -/
def sourceKeys : List Key := [.energy, .flux, .polarization] ++ elementKeys
/-- Keywords of gratings. -/
def gratingKeys : List Key := [.orderSelector, .transmission, .grooveAngle] ++ elementKeys
/-- Keywords of all grids on a torus. -/
def torusKeys : List Key :=
  [.rowland, .guessDistance, .dElement, .optimizeAxis, .normalSpec, .parallelSpec, .idNumOffset, .elemClass, .elemArgs] ++
    containerKeys
/-- Keywords for the place. -/
def placeKeys : List Key := [.pos4d, .position, .orientation, .zoom]

/-- Keywords of each class, without those of its geometry. -/
def Cls.documented : Cls → List Key
  | .marxsElement => [.name]
  | .simulationSequenceElement => elementKeys
  | .baseContainer => containerKeys
  | .sequence => .elements :: containerKeys
  | .parallel => [.elemClass, .elemPos, .elemArgs, .idNumOffset] ++ containerKeys
  | .parallelCalculated => [.elemClass, .posSpec, .normalSpec, .parallelSpec, .elemArgs, .idNumOffset] ++ containerKeys
  | .propagator => .distance :: elementKeys
  | .baseAperture => []
  | .opticalElement | .flatOpticalElement | .flatAperture | .rectangleAperture | .circleAperture | .baffle
  | .flatBrewsterMirror => elementKeys
  | .flatStack => [.elements, .keywords] ++ containerKeys
  | .multiAperture => [.elements, .idNumOffset] ++ containerKeys
  | .perfectLens => [.focallength, .dCenterOpticalAxis, .reflectivityInterpolator] ++ elementKeys
  | .thinLens => .focallength :: elementKeys
  | .flatGrating | .catGrating => .d :: gratingKeys
  | .globalEnergyFilter => [.filterfunc, .name]
  | .energyFilter => .filterfunc :: elementKeys
  | .flatDetector => [.pixsize, .ignorePixelWarning] ++ elementKeys
  | .circularDetector => .pixsize :: elementKeys
  | .ccdRedistNormal => .tabWidth :: elementKeys
  | .multiLayerEfficiency => [.reflFile, .testedPolarization] ++ elementKeys
  | .multiLayerMirror => [.reflFile, .testedPolarization] ++ containerKeys
  | .radialMirrorScatter => [.inplanescatter, .perpplanescatter] ++ elementKeys
  | .randomGaussianScatter => .scatter :: elementKeys
  | .source => .geomarea :: sourceKeys
  | .astroSource | .pointSource => [.coords, .geomarea] ++ sourceKeys
  | .radialDistributionSource => [.radialDistribution, .funcPar, .coords, .geomarea] ++ sourceKeys
  | .sphericalDiskSource | .diskSource => [.aOuter, .aInner, .coords, .geomarea] ++ sourceKeys
  | .gaussSource => [.sigma, .coords, .geomarea] ++ sourceKeys
  | .symbolFSource => [.size, .coords, .geomarea] ++ sourceKeys
  | .farLabPointSource => .sourcePos :: sourceKeys
  | .labPointSourceCone => [.position, .halfOpening, .direction] ++ sourceKeys
  | .pointingModel => elementKeys
  | .fixedPointing => [.coords, .roll, .referenceTransform] ++ elementKeys
  | .jitterPointing => [.jitter, .coords, .roll, .referenceTransform] ++ elementKeys
  | .rowlandTorus => [.bigR, .smallR, .name] ++ placeKeys
  | .elementsOnTorus => torusKeys
  | .rectangularGrid => [.yRange, .zRange] ++ torusKeys
  | .circularMeshGrid => .radius :: torusKeys
  | .gratingArrayStructure => [.phi, .radius] ++ torusKeys
  | .qualityFactor => .qualityfactor :: elementKeys
  | .l1 => .l1Dims :: gratingKeys
  | .l2Abs => .l2Dims :: elementKeys
  | .l2Diffraction => [.l2Dims, .scatter] ++ elementKeys
  | .nonParallelCATGrating => [.dBlazeMm, .blazeCenter, .d] ++ gratingKeys
  | .catL1L2Stack => [.l1Dims, .l2Dims, .l1OrderSelector, .qualityfactor, .orderSelector, .d, .grooveAngle] ++ containerKeys

/-- Keywords without a default. -/
def Cls.required : Cls → List Key
  | .sequence | .multiAperture => [.elements]
  | .parallel => [.elemClass, .elemPos]
  | .parallelCalculated => [.elemClass, .posSpec, .normalSpec, .parallelSpec]
  | .propagator => [.distance]
  | .flatStack => [.elements, .keywords]
  | .perfectLens | .thinLens => [.focallength]
  | .flatGrating | .catGrating | .nonParallelCATGrating => [.orderSelector, .d]
  | .globalEnergyFilter | .energyFilter => [.filterfunc]
  | .ccdRedistNormal => [.tabWidth]
  | .multiLayerEfficiency | .multiLayerMirror => [.reflFile, .testedPolarization]
  | .radialMirrorScatter => [.inplanescatter]
  | .randomGaussianScatter => [.scatter]
  | .astroSource | .pointSource | .symbolFSource | .fixedPointing => [.coords]
  | .radialDistributionSource => [.radialDistribution, .coords]
  | .sphericalDiskSource | .diskSource => [.aOuter, .coords]
  | .gaussSource => [.sigma, .coords]
  | .farLabPointSource => [.sourcePos]
  | .jitterPointing => [.jitter, .coords]
  | .rowlandTorus => [.bigR, .smallR]
  | .elementsOnTorus => [.rowland, .dElement, .elemClass]
  | .rectangularGrid => [.yRange, .rowland, .dElement, .elemClass]
  | .circularMeshGrid | .gratingArrayStructure => [.radius, .rowland, .dElement, .elemClass]
  | .l1 | .catL1L2Stack => [.orderSelector]
  | _ => []

/-- The grids on a torus. -/
def Cls.onTorus : Cls → Bool
  | .elementsOnTorus | .rectangularGrid | .circularMeshGrid | .gratingArrayStructure => true
  | _ => false

/-- Shape of an element if nothing else is requested (`none`: it has no geometry of its own). -/
def Cls.shape : Cls → Option Geo
  | .parallel | .parallelCalculated | .opticalElement | .flatOpticalElement | .flatStack | .flatAperture | .perfectLens
  | .thinLens | .flatGrating | .catGrating | .energyFilter | .flatDetector | .ccdRedistNormal | .baffle
  | .flatBrewsterMirror | .multiLayerEfficiency | .multiLayerMirror | .radialMirrorScatter | .randomGaussianScatter
  | .farLabPointSource | .elementsOnTorus | .rectangularGrid | .circularMeshGrid | .gratingArrayStructure | .qualityFactor
  | .l1 | .l2Abs | .l2Diffraction | .nonParallelCATGrating | .catL1L2Stack => some .plain
  | .rectangleAperture => some .rectangleHole
  | .circleAperture => some .circularHole
  | .circularDetector => some .cylinder
  | _ => none

/-- Keywords that describe a shape. -/
def Geo.keys : Geo → List Key
  | .plain => []
  | .rectangleHole => [.rInner]
  | .circularHole => [.phi, .rInner]
  | .cylinder => [.phiLim]

/-- The geometry that is requested: by the keyword `geometry`, or else the shape of the class. -/
def requested {V : Type} (kind : V → GeomArg) (c : Cls) (args : Key → Option V) : Option GeomArg :=
  c.shape.map fun g => match args .geometry with
    | none => .cls g
    | some v => kind v

/-- Keywords for this geometry: shape and place, but neither for an existing geometry, which has both already. -/
def GeomArg.keys : GeomArg → List Key
  | .inst => [.geometry]
  | .cls g => .geometry :: g.keys ++ placeKeys
  | .other => []

/-- Keywords that can be used for this class, given the geometry. -/
def allowedKeys (c : Cls) (g : Option GeomArg) : List Key :=
  c.documented ++ match g with
    | none => []
    | some g => g.keys

/-- Keywords that are not documented for the class, but accepted and then ignored (finding). -/
def Cls.ignored : Cls → List Key
  | .parallelCalculated => [.elemPos]
  | .elementsOnTorus | .rectangularGrid | .circularMeshGrid | .gratingArrayStructure => [.elemPos, .posSpec]
  | .sphericalDiskSource | .diskSource => [.funcPar, .radialDistribution]
  | .l1 => [.d]
  | .catL1L2Stack => [.elements, .keywords]
  | _ => []

/-- Two ways to give the place at the same time. -/
def PlaceTwice {V : Type} (args : Key → Option V) : Prop :=
  args .pos4d ≠ none ∧ (args .position ≠ none ∨ args .orientation ≠ none ∨ args .zoom ≠ none)

/-- The attribute has the value that was given, or else the default of the class. -/
def TakenFrom {V : Type} (args : Key → Option V) (k : Key) (x : Src V) : Prop :=
  match args k with
  | some v => x = .given v
  | none => x = .byClass

end Marxs
