import Verif.Model.ArcusCamera
import Verif.Model.Tolerancing

/-!
# Silicon pore optics (SPOs)

Models `spogeom2pos4d` and `SPOChannelMirror` in `marxs/missions/athena/spo.py`, `marxs/missions/arcus/spo.py`, and
`Aperture` and the mirrors in `SimpleSPOs` in `marxs/missions/arcus/arcus.py`.

Simplifications: floats are reals, angles are in radian; elements are represented by the keywords that are handed to their class.
-/

namespace Marxs
open Matrix Classical

/-- One row of the table of SPOs, `marxs/missions/athena/spo.py:27-49, 77-84`. -/
structure SpoRow where
  inner : ℝ
  outer : ℝ
  clocking : ℝ
  azwidth : ℝ
  plateHeight : ℝ
  primaryLength : ℝ
  focal : ℝ

/-- The column `r_mid`, `marxs/missions/athena/spo.py:28`. -/
noncomputable def SpoRow.rMid (g : SpoRow) : ℝ := (g.outer + g.inner) / 2

/-- One matrix of `spogeom2pos4d`, `marxs/missions/athena/spo.py:30-49`, in the coordinates of the mission,
`marxs/missions/athena/spo.py:51`. -/
noncomputable def spoPos4d (g : SpoRow) : M4 :=
  xyz2zxy * compose ![0, g.rMid * Real.sin g.clocking, g.rMid * Real.cos g.clocking] (euler2mat (-g.clocking) 0 0)
    ![g.primaryLength, g.azwidth / 2, 36 * g.plateHeight / 2]

/-- `SPOChannelMirror(position, orientation, ...)`, `marxs/missions/athena/spo.py:60-85`. -/
noncomputable def spoChannelMirror (rows : List SpoRow) (refl : ℕ) (where_ : Kwargs) (idNumOffset : ℤ) (name : String) :
    Except Err (List GenElem) :=
  match parsePosition where_ with
  | .error e => .error e
  | .ok (m, _) =>
    generateElements decompose44 ⟨m, 1, rows.map spoPos4d, List.replicate rows.length 1,
      [("d_center_optical_axis", .list (rows.map fun g => .num g.rMid)), ("focallength", .list (rows.map fun g => .num g.focal)),
       ("reflectivity_interpolator", .obj refl), ("id_col", .str "xou")], idNumOffset, name⟩

/-- The mirror of one channel in `SimpleSPOs`, `marxs/missions/arcus/arcus.py:229-242`; `optAx` is `conf['pos_opt_ax']`. -/
noncomputable def arcusMirror (rows : List SpoRow) (refl : ℕ) (optAx : List (String × V3)) (offsets : List (String × ℤ)) (chan name : String) :
    Except Err (List GenElem) :=
  match optAx.lookup chan with
  | none => .error .keyError
  | some p =>
    let rot : M3 := if '1' ∈ chan.toList then 1 else euZ Real.pi
    match offsets.lookup chan with
    | none => .error .keyError
    | some off => spoChannelMirror rows refl [("position", .vec [p.x, p.y, p.z + 12000]), ("orientation", .mat3 rot)] off name

/-- Focal length and distance from the optical axis in `PerfectLens.__init__`, `marxs/optics/mirror.py:44-51`. -/
def lensInit (args : Kwargs) : Except Err (ℝ × ℝ) :=
  match args.get? "focallength" with
  | none => .error .keyError
  | some (.num f) =>
    match args.get? "d_center_optical_axis" with
    | none => .ok (f, 0)
    | some (.num d) => .ok (f, d)
    | some _ => .error .typeError
  | some _ => .error .typeError

/-! ## Apertures -/

/-- `max` of an array, which fails for an empty array; used in `marxs/missions/arcus/spo.py:28,57-64`. -/
noncomputable def maxR : List ℝ → Except Err ℝ
  | [] => .error .valueError
  | x :: l => .ok (l.foldl max x)

/-- `min` of an array, `marxs/missions/arcus/spo.py:28,57`. -/
noncomputable def minR : List ℝ → Except Err ℝ
  | [] => .error .valueError
  | x :: l => .ok (l.foldl min x)

/-- `rmid_spo(conf)`, `marxs/missions/arcus/spo.py:7-28`. For an empty list the array has only one dimension (`IndexError`). -/
noncomputable def rmidSpo (pos : List M4) : Except Err ℝ :=
  match maxR (pos.map fun m => m 1 3), minR (pos.map fun m => m 1 3) with
  | .ok a, .ok b => .ok (1 / 2 * (a + b))
  | _, _ => .error .indexError

/-- `zoom_to_cover_all_spos(conf, azscale, rscale)`, `marxs/missions/arcus/spo.py:31-64`. -/
noncomputable def zoomCover (pos : List M4) (rows : List SpoRow) (azscale rscale : ℝ) : Except Err (ℝ × ℝ × ℝ) :=
  match maxR (pos.map fun m => m 0 3), minR (pos.map fun m => m 0 3), maxR (pos.map fun m => m 1 3), rmidSpo pos with
  | .ok a, .ok b, .ok c, .ok rmid =>
    let azmid := 1 / 2 * (a + b)
    match maxR (rows.map SpoRow.azwidth), maxR (rows.map fun g => g.outer - g.inner) with
    | .ok da, .ok dr => .ok (1, a - azmid + azscale * da, c - rmid + rscale * dr)
    | _, _ => .error .valueError
  | _, _, _, _ => .error .indexError

/-- One pass of the loop in `Aperture.__init__`, `marxs/missions/arcus/arcus.py:203-219`: placement of the aperture of one channel.
Without SPOs `rmid_spo` fails before. -/
noncomputable def apertureOf (pos : List M4) (zoom : ℝ × ℝ × ℝ) (optAx : List (String × V3)) (chan : String) : Except Err M4 :=
  match optAx.lookup chan with
  | none => .error .keyError
  | some p =>
    match rmidSpo pos with
    | .error e => .error e
    | .ok rmid =>
      let place (y : ℝ) : Except Err M4 :=
        (parsePosition [("position", .vec [p.x, y, 12200]), ("zoom", .vec [zoom.1, zoom.2.1, zoom.2.2]),
          ("orientation", .mat3 !![0, 1, 0; 0, 0, 1; 1, 0, 0])]).map Prod.fst
      if '1' ∈ chan.toList then place (p.y + rmid)
      else if '2' ∈ chan.toList then place (p.y - rmid)
      else .error .valueError

/-- `Aperture(conf, channels)`, `marxs/missions/arcus/arcus.py:180-222`: placements of the rectangles. -/
noncomputable def arcusAperture (rows : List SpoRow) (optAx : List (String × V3)) (channels : List String) : Except Err (List M4) :=
  match zoomCover (rows.map spoPos4d) rows 1.1 0.8 with
  | .error e => .error e
  | .ok zoom => channels.mapM (apertureOf (rows.map spoPos4d) zoom optAx)

end Marxs
