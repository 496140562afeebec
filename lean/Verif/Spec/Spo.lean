import Verif.Model.Spo

/-!
# Specification of mirrors and apertures made of SPOs
-/

namespace Marxs

/-- Where an SPO is to be found: at the middle radius from the optical axis through `p`, clocked from the y axis towards x; its
width is tangential, the stack of 36 plates is radial. All of it is turned by 180 degrees around the optical axis for `σ = -1`. -/
noncomputable def spoAt (p : V3) (σ : ℝ) (g : SpoRow) : M4 :=
  let r := (g.outer + g.inner) / 2
  let s := Real.sin g.clocking
  let c := Real.cos g.clocking
  !![0, σ * (g.azwidth / 2 * c), σ * (18 * g.plateHeight * s), p.x + σ * (r * s);
     0, -(σ * (g.azwidth / 2 * s)), σ * (18 * g.plateHeight * c), p.y + σ * (r * c);
     g.primaryLength, 0, 0, p.z + 12000;
     0, 0, 0, 1]

/-- Channels with a 1 in their name look in the direction of the table, others are turned by 180 degrees. -/
def chanSign (chan : String) : ℝ := if '1' ∈ chan.toList then 1 else -1

/-- The sizes in the table are positive. -/
structure SpoRow.Ok (g : SpoRow) : Prop where
  az_pos : 0 < g.azwidth
  plate_pos : 0 < g.plateHeight
  length_pos : 0 < g.primaryLength
  dr_pos : g.inner < g.outer
  focal_pos : 0 < g.focal

end Marxs
