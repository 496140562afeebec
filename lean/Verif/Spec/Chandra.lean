import Verif.Model.Chandra

/-! Vocabulary for the properties of pointings and of the Chandra coordinate systems. -/

namespace Marxs

/-- Unit vector to a position on the sky. -/
noncomputable def skyPos (ra dec : ℝ) : V3 :=
  ⟨Real.cos dec * Real.cos ra, Real.cos dec * Real.sin ra, Real.sin dec⟩

/-- Direction to the North at a position on the sky: how the position changes with declination. -/
noncomputable def skyNorth (ra dec : ℝ) : V3 :=
  ⟨-Real.sin dec * Real.cos ra, -Real.sin dec * Real.sin ra, Real.cos dec⟩

/-- Direction to the East at a position on the sky: how the position changes with right ascension. -/
noncomputable def skyEast (ra : ℝ) : V3 := ⟨-Real.sin ra, Real.cos ra, 0⟩

/-- The z axis of the telescope on the sky: North for roll zero, turned from North to East. -/
noncomputable def telescopeZ (p : Pointing) : V3 :=
  Real.cos p.roll • skyNorth p.ra p.dec + Real.sin p.roll • skyEast p.ra

/-- The direction in which a photon flies that comes from the sky position `s`, in the right handed system where x
points to the target and z as given by the roll. -/
noncomputable def photonFlight (p : Pointing) (s : V3) : V3 :=
  ⟨-s.dot (skyPos p.ra p.dec), -s.dot ((telescopeZ p).cross (skyPos p.ra p.dec)), -s.dot (telescopeZ p)⟩

/-- Squared distance of two points in a plane. -/
def sqDist2 (p q : ℝ × ℝ) : ℝ := (p.1 - q.1) ^ 2 + (p.2 - q.2) ^ 2

/-- The area of a chip with 1024 pixels: centers of pixels are whole numbers from 1. -/
def OnChip (c : ℝ × ℝ) : Prop := 0.5 ≤ c.1 ∧ c.1 ≤ 1024.5 ∧ 0.5 ≤ c.2 ∧ c.2 ≤ 1024.5

/-- Offset of a sky position from the target in the tangent plane, to the East and to the North. -/
noncomputable def tangentEast (p : Pointing) (s : V3) : ℝ := s.dot (skyEast p.ra) / s.dot (skyPos p.ra p.dec)
/-- See `tangentEast`. -/
noncomputable def tangentNorth (p : Pointing) (s : V3) : ℝ := s.dot (skyNorth p.ra p.dec) / s.dot (skyPos p.ra p.dec)

/-- A point that an ideal telescope with the given nodal point shows for photons with direction `d`: it is on the
line through the nodal point in the direction of flight. -/
def OnRayThrough (node d pos : V3) : Prop := ∃ l : ℝ, l ≠ 0 ∧ pos = node + l • d

end Marxs
