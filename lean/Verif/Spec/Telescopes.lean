import Verif.Model.Telescopes
import Verif.Spec.Budget

/-!
# Specification for telescopes of the missions
-/

namespace Marxs
open Classical

/-- Where on the way through the telescope a photon meets parts of each class: 0 aperture, 1 mirror, 2 gratings, 3 boom, filters and quantum efficiency, 4 detectors (and the planes and shifts between them), 5 the tag with
the version at the end. -/
def lightStage (c : String) : ℕ :=
  if c ∈ ["MetaShellAperture", "CircleAperture", "Aperture"] then 0
  else if c ∈ ["MetaShell", "PerfectLensSegment", "MirrorGeometricScaling", "RadialMirrorScatter", "SimpleSPOs"] then 1
  else if c ∈ ["LynxGAS", "GAS", "CATGratings", "catsupportbars"] then 2
  else if c ∈ ["GlobalEnergyFilter", "FiltersAndQE", "FourSidedBoom"] then 3
  else if c ∈ ["RowlandDetArray", "DetCamera", "ProjectOntoPlane", "Propagator", "CircularDetector", "FlatDetector", "FocalPlaneDet"] then 4
  else 5

/-- Photons meet the parts in this order: no part comes after one of a later stage, there is an aperture, a mirror and a detector, and the tag with the version is set once, at the end. -/
def InLightOrder (t : Telescope) : Prop :=
  (t.tree.inner.map fun e => lightStage e.cls).Pairwise (· ≤ ·) ∧
  (∃ e ∈ t.tree.inner, lightStage e.cls = 0) ∧ (∃ e ∈ t.tree.inner, lightStage e.cls = 1) ∧ (∃ e ∈ t.tree.inner, lightStage e.cls = 4) ∧
  (∃ e, t.tree.inner.getLast? = some e ∧ e.cls = "TagVersion") ∧ (t.tree.inner.filter fun e => e.cls = "TagVersion").length = 1

/-- Number of objects of a class (exactly this class) at any depth. -/
def howMany (t : Telescope) (c : String) : ℕ := ((walkList [] t.tree.inner).filter fun x => x.2.cls = c).length

/-- Every CAT grating membrane, at any depth, has the grating constant for this chirp. -/
def AllChirped (t : Telescope) (k : ChirpFor) : Prop :=
  ∀ outer e, PartOf t.tree outer e → e.cls = "NonParallelCATGrating" → (t.state e.ident).own = some k

/-- Parts that photons meet before they get to the detectors. -/
def frontPart (t : Telescope) : List (Elt String) := t.tree.inner.filter fun e => lightStage e.cls < 4

/-- No object has anything set on it when it is made. -/
def NothingSet (fresh : ℕ → Align (Option ChirpFor)) : Prop := ∀ i, (fresh i).own = none

/-- The four classes of Arcus telescopes. -/
def arcusKinds : List ArcusKind := [kindPerfectArcus, kindArcus, kindArcusForPlot, kindArcusForSixte]

/-- Tolerances (3 sigma, in μm and arcsec) as standard deviations in mm and rad, multiplied with a factor. -/
noncomputable def tolFrom (f x y z a b c : ℝ) : List ℝ :=
  [f * x / 3000, f * y / 3000, f * z / 3000, f * npDeg2rad (a / 10800), f * npDeg2rad (b / 10800), f * npDeg2rad (c / 10800)]

end Marxs
