import Verif.Model.SceneJson

/-!
# Specification for scenes in the browser
-/

namespace Marxs

/-- The value that sets the color of point `j` of ray `i`. -/
noncomputable def rayValue : RayScalar → ℕ → ℕ → Option ℝ
  | .none, _, _ => some 0
  | .perRay s, i, _ => s[i]?
  | .perPoint s, i, j => s[i]? >>= fun r => r[j]?
  | .bad, _, _ => none

/-- The values fit to `n` rays with `N` points each: one per ray or one per point. -/
def FitsRays (n N : ℕ) : RayScalar → Prop
  | .none => True
  | .perRay s => s.length = n
  | .perPoint s => s.length = n ∧ ∀ r ∈ s, r.length = N
  | .bad => False

/-- Corner number `k` of the triangles of a mesh. -/
def cornerAt (vertices : List V3) (index : List ℕ) (k : ℕ) : Option V3 := index[k]? >>= fun i => vertices[i]?

/-- The point on a torus around the z axis at angle `u` around the axis and angle `v` around the ring. -/
noncomputable def ringPoint (R r u v : ℝ) : V3 :=
  ⟨(R + r * Real.cos v) * Real.cos u, (R + r * Real.cos v) * Real.sin u, r * Real.sin v⟩

end Marxs
