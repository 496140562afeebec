import Verif.Model.SharedConf

/-!
# Specification for shared configurations
-/

namespace Marxs

/-- `g` is the inner dictionary `name` of the configuration `c`. -/
def IsInner {V : Type} (h : DictHeap V) (name : String) (c g : ℕ) : Prop := h.dicts c name = some (.ref g)

/-- The session has the three layers found in all missions: configurations, inner dictionaries, and dictionaries with arguments for the elements. Configurations may share the dictionaries of lower
layers in any way, but no dictionary is used on two layers, and only dictionaries that exist are used. -/
structure Layered {V : Type} (h : DictHeap V) (uses : List (GridClass V × ℕ)) : Prop where
  conf_exists : ∀ u ∈ uses, u.2 < h.next
  inner_exists : ∀ u ∈ uses, ∀ g, IsInner h u.1.inner u.2 g → g < h.next
  args_exists : ∀ u ∈ uses, ∀ g, IsInner h u.1.inner u.2 g → ∀ a, h.dicts g "elem_args" = some (.ref a) → a < h.next
  inner_ne_conf : ∀ u ∈ uses, ∀ u' ∈ uses, ∀ g, IsInner h u.1.inner u.2 g → g ≠ u'.2
  args_ne_conf : ∀ u ∈ uses, ∀ u' ∈ uses, ∀ g, IsInner h u.1.inner u.2 g → ∀ a, h.dicts g "elem_args" = some (.ref a) → a ≠ u'.2
  args_ne_inner : ∀ u ∈ uses, ∀ u' ∈ uses, ∀ g g', IsInner h u.1.inner u.2 g → IsInner h u'.1.inner u'.2 g' →
    ∀ a, h.dicts g "elem_args" = some (.ref a) → a ≠ g'

/-- What an observer sees of a constructor: the exception, or the keywords and arguments the elements are made from. -/
noncomputable def observed {V : Type} (r : DictHeap V × Except Err (GridObj V)) : Except Err (HDict V × HDict V) :=
  match r.2 with
  | .error e => .error e
  | .ok o => .ok (o.kwargs, r.1.dicts o.args)

/-- Every key that `a` sets is also set by `b`, in the same dictionary. -/
def Covers {V : Type} (b a : GridClass V) : Prop :=
  ∀ l ∈ a.lines, ∃ l' ∈ b.lines, l'.inArgs = l.inArgs ∧ l'.key = l.key

end Marxs
