import Verif.Model.Table

/-!
# Containers of optical elements

Models `marxs/simulator/simulator.py`: `BaseContainer.__call__`, `elements_of_class`,
`first_of_class_top_level`, `KeepCol`.
-/

namespace Marxs

/-- A hook (`preprocess_steps` / `postprocess_steps`): sees the photons and some outside world `W`
(files, its own attributes, ...). It may change the photons in place (first component), returns
something (second component) and changes the world (third).
`marxs/simulator/simulator.py:42-49, 155-167`. -/
abbrev Hook (P W : Type) := P → W → Except Err (P × Option P × W)

/-- Elements that can be called: photons in, photons out, with a change to the world. Used for `marxs/simulator/simulator.py:26-40`. -/
abbrev Callable (P W : Type) := P → W → Except Err (P × W)

/-- Anything that can sit in `container.elements`: a plain callable or another container with its
own hooks. `marxs/simulator/simulator.py:26-40`. -/
inductive Node (P W : Type) where
  | leaf (f : Callable P W)
  | cont (pre post : List (Hook P W)) (elements : List (Node P W))

/-- `for p in steps: p(photons)`; the return value of the hook is ignored.
`marxs/simulator/simulator.py:44-45, 47-48`. -/
def runHooks {P W : Type} : List (Hook P W) → P → W → Except Err (P × W)
  | [], p, w => .ok (p, w)
  | h :: hs, p, w => do
      let (p', _, w') ← h p w
      runHooks hs p' w'

mutual
/-- Calling an element or a container, `marxs/simulator/simulator.py:42-49`. -/
def Node.call {P W : Type} : Node P W → P → W → Except Err (P × W)
  | .leaf f, p, w => f p w
  | .cont pre post es, p, w => callElements pre post es p w

/-- The loop over `self.elements`, `marxs/simulator/simulator.py:43-48`. -/
def callElements {P W : Type} (pre post : List (Hook P W)) :
    List (Node P W) → P → W → Except Err (P × W)
  | [], p, w => .ok (p, w)
  | e :: es, p, w => do
      let (p1, w1) ← runHooks pre p w
      let (p2, w2) ← e.call p1 w1
      let (p3, w3) ← runHooks post p2 w2
      callElements pre post es p3 w3
end

/-- `KeepCol.__call__`, `marxs/simulator/simulator.py:566-570`: append a copy of one column to
`data`, `KeyError` if the column does not exist. The world is the attribute `data`. -/
def keepCol (col : String) : Hook Table (List (List Val)) := fun t data =>
  if col ∈ t.names then .ok (t, none, data ++ [t.rows.map (· col)])
  else .error .keyError

/-- Tree of simulation elements as seen by the class search; `cls` identifies the Python class,
`id` the object. Leaves are objects without a method `elements_of_class`. Used for `marxs/simulator/simulator.py:51-101`. -/
inductive Elt (C : Type) where
  | leaf (cls : C) (id : ℕ)
  | cont (cls : C) (id : ℕ) (elements : List (Elt C))

/-- Class of an object, `type(e)`. Used for `marxs/simulator/simulator.py:51-101`. -/
def Elt.cls {C : Type} : Elt C → C
  | .leaf c _ => c
  | .cont c _ _ => c

mutual
/-- `elements_of_class` called on a container, `marxs/simulator/simulator.py:51-101`. The predicate
`m` on classes is `type(e) == cls` or `isinstance(e, cls)`. For a leaf the method does not exist and
the caller adds nothing (line 99). -/
def Elt.elementsOfClass {C : Type} (m : C → Bool) (stop : Bool) : Elt C → List (Elt C)
  | .leaf _ _ => []
  | .cont c i es =>
    if m c then
      if stop then [.cont c i es] else .cont c i es :: elementsOfClassList m es
    else elementsOfClassList m es

/-- The loop over `self.elements`, `marxs/simulator/simulator.py:96-100`. Note that the recursive
call does not hand on `stop_at_first`. -/
def elementsOfClassList {C : Type} (m : C → Bool) : List (Elt C) → List (Elt C)
  | [] => []
  | e :: es =>
    (if m e.cls then [e] else e.elementsOfClass m false) ++ elementsOfClassList m es
end

/-- `first_of_class_top_level`, `marxs/simulator/simulator.py:104-142`; `i` is the index of the
first element of the remaining list. -/
def firstOfClass {C : Type} (m : C → Bool) (i : ℕ) : List (Elt C) → Option ℕ
  | [] => none
  | e :: es =>
    if m e.cls then some i
    else if (e.elementsOfClass m false).length > 0 then some i
    else firstOfClass m (i + 1) es

/-- Indices of the snapshots kept by `KeepCol.format_positions`,
`marxs/simulator/simulator.py:609-617`. `close a b` is `np.allclose(a, b, atol, equal_nan=True)`;
`last` is `d[:, ind[-1], :]`, `i` the index of the first entry of the list. The result lists the
indices appended to `ind`. -/
def keptFrom {α : Type} (close : α → α → Bool) (last : α) (i : ℕ) : List α → List ℕ
  | [] => []
  | x :: xs =>
    if close last x then keptFrom close last (i + 1) xs
    else i :: keptFrom close x (i + 1) xs

/-- `KeepCol.format_positions` with `atol` set, `marxs/simulator/simulator.py:603-617`: index list
`ind`; `ValueError` without data. -/
def formatPositions {α : Type} (close : α → α → Bool) : List α → Except Err (List ℕ)
  | [] => .error .valueError
  | x :: xs => .ok (0 :: keptFrom close x 1 xs)

end Marxs
