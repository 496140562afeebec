import Verif.Model.Table

/-!
# Telescopes built from configurations that share dictionaries

The missions keep their parameters in nested dictionaries. `copy.copy` makes a second configuration that shares the inner dictionaries with the first
(`conf_5050`, `conf_chirp`), and the grating structures write into these inner dictionaries. Python dictionaries are modelled as cells of a heap, so that sharing is visible.
Simplification: the order of keys in a dictionary is not modelled (nothing depends on it).
-/

namespace Marxs
open Classical

/-- A value in a dictionary: something that is never changed in place, or a reference to another dictionary. Used for `marxs/missions/lynx/lynx.py:110-123`. -/
inductive HeapVal (V : Type) where
  | val (v : V)
  | ref (n : ℕ)

/-- Contents of a dictionary. Used for `marxs/missions/lynx/lynx.py:110-123`. -/
abbrev HDict (V : Type) := String → Option (HeapVal V)

/-- All dictionaries of a session; `next` is the first free cell. Used for `marxs/missions/lynx/lynx.py:110-123`. -/
structure DictHeap (V : Type) where
  dicts : ℕ → HDict V
  next : ℕ

/-- `d[k] = v` for the dictionary `n`. Used for `marxs/missions/lynx/lynx.py:110-123`. -/
noncomputable def DictHeap.put {V : Type} (h : DictHeap V) (n : ℕ) (k : String) (v : V) : DictHeap V :=
  { h with dicts := Function.update h.dicts n (Function.update (h.dicts n) k (some (.val v))) }

/-- `d.copy()`: a new dictionary with the same contents. Used for `marxs/missions/lynx/lynx.py:110-123`. -/
noncomputable def DictHeap.alloc {V : Type} (h : DictHeap V) (d : HDict V) : DictHeap V × ℕ :=
  (⟨Function.update h.dicts h.next d, h.next + 1⟩, h.next)

/-- `d[k]` when the value has to be a plain value (a nested dictionary where a number is expected is a `TypeError`). Used for `marxs/missions/lynx/lynx.py:110-123`. -/
def HDict.value {V : Type} (d : HDict V) (k : String) : Except Err V :=
  match d k with
  | some (.val v) => .ok v
  | some (.ref _) => .error .typeError
  | none => .error .keyError

/-- `d[k]` when the value has to be a dictionary. Used for `marxs/missions/lynx/lynx.py:110-123`. -/
def HDict.sub {V : Type} (d : HDict V) (k : String) : Except Err ℕ :=
  match d k with
  | some (.ref n) => .ok n
  | some (.val _) => .error .typeError
  | none => .error .keyError

/-- One line like `gg['rowland'] = conf['rowland']` (`inArgs = false`) or `gg['elem_args']['zoom'] = …` (`inArgs = true`); `value` calculates the
right hand side from the configuration. Used for `marxs/missions/lynx/lynx.py:110-123`. -/
structure SetLine (V : Type) where
  inArgs : Bool
  key : String
  value : HDict V → Except Err V

/-- Execute the lines in order, for the inner dictionary `gg` of the configuration `conf`. The right hand side is evaluated before the target, and an exception leaves
what has been set already. Used for `marxs/missions/lynx/lynx.py:110-123`. -/
noncomputable def runLines {V : Type} (conf gg : ℕ) : List (SetLine V) → DictHeap V → DictHeap V × Except Err Unit
  | [], h => (h, .ok ())
  | l :: ls, h =>
    match l.value (h.dicts conf) with
    | .error e => (h, .error e)
    | .ok v =>
      if l.inArgs then
        match (h.dicts gg).sub "elem_args" with
        | .error e => (h, .error e)
        | .ok ea => runLines conf gg ls (h.put ea l.key v)
      else runLines conf gg ls (h.put gg l.key v)

/-- Numerical parts of the calculation; only their results matter here: `conf['grating_size'] + 2 * conf['grating_frame']`, the minimum and maximum of the radii of the
metashells, half the size of a grating, one entry of `conf['pos_opt_ax']` and `conf['rowland_central'].r + conf['rowland_central'].R`. Used for `marxs/missions/lynx/lynx.py:110-121`. -/
structure ConfCalc (V : Type) where
  dElement : V → V → Except Err V
  radius : V → Except Err V
  zoom : V → Except Err V
  optAx : V → String → Except Err V
  guess : V → Bool → Except Err V
  blaze : V → Bool → Except Err V

/-- A class that places gratings: name of the inner dictionary and the lines that update it. Used for `marxs/missions/lynx/lynx.py:110-121`. -/
structure GridClass (V : Type) where
  inner : String
  lines : List (SetLine V)

/-- `LynxGAS.__init__`, `marxs/missions/lynx/lynx.py:110-121`. -/
def lynxGas {V : Type} (f : ConfCalc V) : GridClass V :=
  ⟨"gas_kwargs",
   [⟨false, "rowland", fun c => c.value "rowland"⟩,
    ⟨false, "d_element", fun c => do f.dElement (← c.value "grating_size") (← c.value "grating_frame")⟩,
    ⟨false, "radius", fun c => do f.radius (← c.value "metashellgeometry")⟩,
    ⟨true, "zoom", fun c => do f.zoom (← c.value "grating_size")⟩,
    ⟨true, "orientation", fun c => c.value "blazemat"⟩]⟩

/-- `GAS.__init__`, `marxs/missions/athena/athecat.py:127-139`. -/
def athenaGas {V : Type} (f : ConfCalc V) : GridClass V :=
  ⟨"gas_kwargs",
   [⟨false, "rowland", fun c => c.value "rowland"⟩,
    ⟨false, "d_element", fun c => do f.dElement (← c.value "grating_size") (← c.value "grating_frame")⟩,
    ⟨true, "zoom", fun c => do f.zoom (← c.value "grating_size")⟩,
    ⟨true, "orientation", fun c => c.value "blazemat"⟩]⟩

/-- One channel in `RegularGrid.__init__`, `marxs/missions/arcus/ralfgrating.py:139-147`. `mirrored` is `'m' in chan`. -/
def regularGrid {V : Type} (f : ConfCalc V) (chan : String) (mirrored : Bool) : GridClass V :=
  ⟨"gratinggrid",
   [⟨false, "rowland", fun c => c.value ("rowland_" ++ chan)⟩,
    ⟨true, "orientation", fun c => do f.blaze (← c.value "blazeang") mirrored⟩,
    ⟨false, "normal_spec", fun c => do f.optAx (← c.value "pos_opt_ax") chan⟩,
    ⟨false, "guess_distance", fun c => do f.guess (← c.value "rowland_central") mirrored⟩]⟩

/-- A structure of gratings: the keyword arguments it was called with, and the dictionary with the arguments for the elements it owns
(`Parallel.__init__`, `marxs/simulator/simulator.py:331`). -/
structure GridObj (V : Type) where
  kwargs : HDict V
  args : ℕ

/-- The constructor: update the inner dictionary, call `super().__init__(**gg)`, `marxs/missions/lynx/lynx.py:110-123`,
`marxs/missions/athena/athecat.py:127-141`, `marxs/missions/arcus/ralfgrating.py:139-154`; in `Parallel.__init__` `elem_args` is copied,
`marxs/simulator/simulator.py:330-331`. What follows in `super().__init__` does not touch dictionaries of the configuration and is not part of
this model. -/
noncomputable def GridClass.init {V : Type} (cl : GridClass V) (conf : ℕ) (h : DictHeap V) : DictHeap V × Except Err (GridObj V) :=
  match (h.dicts conf).sub cl.inner with
  | .error e => (h, .error e)
  | .ok gg =>
    match runLines conf gg cl.lines h with
    | (h, .error e) => (h, .error e)
    | (h, .ok _) =>
      match h.dicts gg "elem_args" with
      | some (.val _) => (h, .error .attributeError)
      | some (.ref ea) =>
        let r := h.alloc (h.dicts ea)
        (r.1, .ok ⟨h.dicts gg, r.2⟩)
      | none =>
        let r := h.alloc (fun _ => none)
        (r.1, .ok ⟨h.dicts gg, r.2⟩)

/-- Constructors called one after the other, with any class and configuration; exceptions are caught by the caller. Used for `marxs/simulator/simulator.py:331`. -/
noncomputable def runInits {V : Type} : List (GridClass V × ℕ) → DictHeap V → DictHeap V
  | [], h => h
  | (cl, c) :: l, h => runInits l (cl.init c h).1

/-- `generate_elements` (`marxs/simulator/simulator.py:384-440`): elements are made from the keywords of the structure and the dictionary `elem_args` it owns;
`make` stands for the class of the elements. -/
def GridObj.elements {V E : Type} (make : HDict V → HDict V → E) (h : DictHeap V) (o : GridObj V) : E :=
  make o.kwargs (h.dicts o.args)

end Marxs
