import Verif.Model.Tolerancing
import Verif.Spec.Placement
import Verif.Spec.Base
import Verif.Spec.Container

/-!
# Specifications for tolerancing
-/

namespace Marxs
open Matrix

/-- Rigid motion: a proper rotation followed by a translation. -/
def IsRigid (m : M4) : Prop :=
  ∃ (t : Fin 3 → ℝ) (r : M3), IsRotation r ∧ ∀ p, m *ᵥ hom p = hom (r *ᵥ p + t)

/-- Parameters of the last `moveglobal` in a history. -/
def lastGlobal (ops : List ParOp) : Option Dof :=
  (ops.filterMap fun o => match o with
    | .global p => some p
    | _ => none).getLast?

/-- The misalignment of each of `n` elements that is asked for by a call: the same for all
(`moveindividual`) or drawn from Gaussians with mean zero (`wiggle`). -/
noncomputable def ParOp.misalign (n : ℕ) : ParOp → Option (List M4)
  | .global _ => none
  | .individual p => some (List.replicate n (moveMat p))
  | .wiggle p zt zr => some ((List.range n).map fun i =>
      moveMat ⟨p.dx * zt i 0, p.dy * zt i 1, p.dz * zt i 2, p.rx * zr i 0, p.ry * zr i 1, p.rz * zr i 2⟩)

/-- Misalignment by the last `moveindividual` or `wiggle` in a history. -/
noncomputable def lastMisalign (n : ℕ) (ops : List ParOp) : Option (List M4) :=
  (ops.filterMap (ParOp.misalign n)).getLast?

/-- The standard deviations handed to `wiggle` are not negative. -/
def ParOp.Valid : ParOp → Prop
  | .wiggle p _ _ => 0 ≤ p.dx ∧ 0 ≤ p.dy ∧ 0 ≤ p.dz ∧ 0 ≤ p.rx ∧ 0 ≤ p.ry ∧ 0 ≤ p.rz
  | _ => True

/-- One evaluation: starting in state `s`, with parameters `pars` and the photons `t`, the result is
`res` and the state afterwards is `s'`. -/
def Evaluates {S T V : Type} (f : TolFuns S T V) (t : T) (pars : Dict V) (s : S) (res : Dict V) (s' : S) :
    Prop :=
  ∃ s1 t1 new s2 t2, f.wig s pars = .ok s1 ∧ f.instr s1 t = .ok (t1, new, s2) ∧
    f.ana s2 (new.getD t1) = .ok (t2, res, s')

/-- A chain of evaluations, all with the same photons `t`. -/
inductive EvalChain {S T V : Type} (f : TolFuns S T V) (t : T) :
    S → List (Dict V) → List (Dict V) → S → Prop
  | nil (s) : EvalChain f t s [] [] s
  | cons {s s' s'' pars res ps rs} (h : Evaluates f t pars s res s') (hs : EvalChain f t s' ps rs s'') :
      EvalChain f t s (pars :: ps) (res :: rs) s''

/-- `d` has the entries of `pars` and `res`; where both have the same key, that of `res`. -/
def IsUpdated {V : Type} (pars res d : Dict V) : Prop :=
  ∀ k, d.lookup k = (res.lookup k).or (pars.lookup k)

/-- The effect of the wiggle function depends only on the last call: what the instrument and the
analysis see (`view`) after a call does not depend on the state before, as long as that state is one that
can occur (`inv`). -/
structure LastCallWins {S T V O : Type} (f : TolFuns S T V) (inv : S → Prop) (view : S → O) : Prop where
  wig : ∀ s s' p, inv s → inv s' → ∀ s1, f.wig s p = .ok s1 →
    inv s1 ∧ ∃ s1', f.wig s' p = .ok s1' ∧ view s1 = view s1'
  instr : ∀ s s' t, inv s → inv s' → view s = view s' → ∀ t1 new s1, f.instr s t = .ok (t1, new, s1) →
    inv s1 ∧ ∃ s1', f.instr s' t = .ok (t1, new, s1') ∧ view s1 = view s1'
  ana : ∀ s s' t, inv s → inv s' → view s = view s' → ∀ t1 r s1, f.ana s t = .ok (t1, r, s1) →
    inv s1 ∧ ∃ s1', f.ana s' t = .ok (t1, r, s1')

/-- The entry of a wiggle list where degree of freedom number `i` has the value `v` and all others are
zero. -/
def IsSingle (names : List String) (i : ℕ) (v : ℝ) (d : Dict ℝ) : Prop :=
  IsDict d ∧ d.map Prod.fst = names ∧
    ∀ j (h : j < names.length), d.lookup names[j] = some (if j = i then v else 0)

end Marxs
