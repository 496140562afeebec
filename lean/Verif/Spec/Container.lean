import Verif.Model.Container

/-! Specification vocabulary for containers. -/

namespace Marxs

/-- An entry of a flat schedule: call this hook or this element. -/
inductive Event (P W : Type) where
  | hook (h : Hook P W)
  | elem (f : Callable P W)

/-- Run a flat schedule: each event exactly once, in order; elements replace the photons by their
return value, hooks only act in place. -/
def runSchedule {P W : Type} : List (Event P W) → P → W → Except Err (P × W)
  | [], p, w => .ok (p, w)
  | .hook h :: es, p, w =>
    match h p w with
    | .error e => .error e
    | .ok (p', _, w') => runSchedule es p' w'
  | .elem f :: es, p, w =>
    match f p w with
    | .error e => .error e
    | .ok (p', w') => runSchedule es p' w'

mutual
/-- The flat schedule of a nested simulation: around every element of a container come the hooks of
that container. -/
def Node.schedule {P W : Type} : Node P W → List (Event P W)
  | .leaf f => [.elem f]
  | .cont pre post es => scheduleList pre post es
/-- schedule of the elements of one container -/
def scheduleList {P W : Type} (pre post : List (Hook P W)) :
    List (Node P W) → List (Event P W)
  | [] => []
  | e :: es => pre.map .hook ++ e.schedule ++ post.map .hook ++ scheduleList pre post es
end

mutual
/-- All leaves, left to right. -/
def Node.leaves {P W : Type} : Node P W → List (Callable P W)
  | .leaf f => [f]
  | .cont _ _ es => leavesList es
/-- leaves of a list of elements -/
def leavesList {P W : Type} : List (Node P W) → List (Callable P W)
  | [] => []
  | e :: es => e.leaves ++ leavesList es
end

mutual
/-- No container of the tree has hooks. -/
def Node.NoHooks {P W : Type} : Node P W → Prop
  | .leaf _ => True
  | .cont pre post es => pre = [] ∧ post = [] ∧ noHooksList es
/-- no hooks in a list of elements -/
def noHooksList {P W : Type} : List (Node P W) → Prop
  | [] => True
  | e :: es => e.NoHooks ∧ noHooksList es
end

mutual
/-- All objects of the tree (depth first, parents before children), each with the list of its
proper ancestors. -/
def Elt.walk {C : Type} (anc : List (Elt C)) : Elt C → List (List (Elt C) × Elt C)
  | .leaf c i => [(anc, .leaf c i)]
  | .cont c i es => (anc, .cont c i es) :: walkList (.cont c i es :: anc) es
/-- walk over the children -/
def walkList {C : Type} (anc : List (Elt C)) : List (Elt C) → List (List (Elt C) × Elt C)
  | [] => []
  | e :: es => e.walk anc ++ walkList anc es
end

/-- `e` is or contains an object of a matching class. -/
def Elt.Contains {C : Type} (m : C → Bool) (e : Elt C) : Prop :=
  ∃ x ∈ e.walk [], m x.2.cls = true

end Marxs
