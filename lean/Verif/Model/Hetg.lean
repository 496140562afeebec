import Verif.Model.Placement
import Verif.Model.Grating
import Verif.Model.ArcusArf

/-!
# The High Energy Transmission Grating of Chandra

Models `HETG` in `marxs/missions/chandra/hess.py` and `FlatGrating.__init__`, `marxs/optics/grating.py:174-184`.

Simplifications: floats are reals; the table is an argument (the code reads a file); gratings are represented by the
keywords that are handed to their class.
-/

namespace Marxs
open Matrix Classical

/-- One row of the table of facets, columns used in `marxs/missions/chandra/hess.py:28-85`: location code, centre, normal,
vectors along the two sides and along the grating lines. -/
structure HessRow where
  loc : String
  c : V3
  n : V3
  ux : V3
  uy : V3
  ul : V3

/-- `int(self.hess['hessloc'][i][0])`, `marxs/missions/chandra/hess.py:69`. -/
def hessShell (loc : String) : Except Err ℕ :=
  match loc.toList with
  | [] => .error .indexError
  | ch :: _ => if ch.isDigit then .ok (ch.toNat - '0'.toNat) else .error .valueError

/-- One pass of the loop in `calculate_elempos`, `marxs/missions/chandra/hess.py:58-84`. -/
noncomputable def hessPos (r : HessRow) : Except Err M4 :=
  match hessShell r.loc with
  | .error e => .error e
  | .ok k =>
    let zoom : Fin 3 → ℝ := if k ≤ 3 then ![1, 1.035 * 25.4 / 2, 1.035 * 25.4 / 2] else ![1, 0.920 * 25.4 / 2, 0.920 * 25.4 / 2]
    .ok (compose ![r.c.x + (339.909 - 1.7) * 25.4, r.c.y, r.c.z]
      !![r.n.x, r.ux.x, r.uy.x; r.n.y, r.ux.y, r.uy.y; r.n.z, r.ux.z, r.uy.z] zoom)

/-- `d`, `marxs/missions/chandra/hess.py:31`. -/
noncomputable def hetgD : List ℝ := List.replicate 192 (4001.95 * 1e-7) ++ List.replicate 144 (2000.81 * 1e-7)

/-- `groove_ang`, `marxs/missions/chandra/hess.py:32-36`. -/
noncomputable def hessGroove (r : HessRow) : ℝ := -arctan2 (r.ul.dot r.ux) (r.ul.dot r.uy)

/-- The last column of `move`, `marxs/missions/chandra/hess.py:44-46`. -/
noncomputable def hetgHinge : Fin 3 → ℝ := ![8618, -650 * Real.sin (60 * Real.pi / 180), 650 * Real.cos (60 * Real.pi / 180)]

/-- The container before its centre is moved, `marxs/missions/chandra/hess.py:28-40`, with the class attribute `id_col`; `p`
is `pos4d`, `os` the order selector. -/
noncomputable def hetgPar (p : M4) (name : String) (os : ℕ) (rows : List HessRow) (ps : List M4) : Par :=
  ⟨p, 1, ps, List.replicate ps.length 1,
    [("order_selector", .obj os), ("d", .list (hetgD.map .num)), ("name", .list (rows.map fun r => .str r.loc)),
     ("groove_angle", .list (rows.map fun r => .num (hessGroove r))), ("id_col", .str "facet")], 0, name⟩

/-- `HETG(**kwargs)`, `marxs/missions/chandra/hess.py:14-47`: the keywords of all gratings. -/
noncomputable def hetg (p : M4) (name : String) (os : ℕ) (rows : List HessRow) : Except Err (List GenElem) :=
  match rows.mapM hessPos with
  | .error e => .error e
  | .ok ps =>
    if p.det = 0 then .error .valueError
    else match generateElements decompose44 (hetgPar p name os rows ps) with
      | .error e => .error e
      | .ok _ => match moveCenter (hetgPar p name os rows ps) (translation2aff hetgHinge) with
        | .error e => .error e
        | .ok c => generateElements decompose44 c

/-- `FlatGrating.__init__`, `marxs/optics/grating.py:174-184`, with the default `transmission`; `sel` is the order selector. A list as
grating constant is not modelled (`typeError`). -/
noncomputable def flatGrating (sel : ℝ → H4 → Option ℝ → ℤ × ℝ) (e : GenElem) : Except Err Grating :=
  match e.args.get? "order_selector" with
  | none => .error .keyError
  | some _ => match e.args.get? "d" with
    | none => .error .valueError
    | some (.num d) =>
      let g (a : ℝ) : Grating := ⟨true, a, fun _ => d, fun _ => 0, sel, flatSign, fun _ => planeBases e.pos4d⟩
      match e.args.get? "groove_angle" with
      | none => .ok (g 0)
      | some (.num a) => .ok (g a)
      | some _ => .error .typeError
    | some _ => .error .typeError

end Marxs
