import Verif.Model.Life
import Verif.Spec.Pickle

/-! # Pickling of forests (/repo/wildwood/forest.py) -/
namespace Verif

variable {L V K F P G : Type}

/-- What `pickle.dumps(forest)` stores. `attrs`: the attributes other than the trees, which are numbers, strings, arrays and the encoder (an object without compiled
parts), restored exactly by pickle; `trees`: the states of the trees. -/
structure SavedForest (L V K F P G : Type) where
  attrs : Est L V K F P G
  trees : List (List (String × Val F P))

/-- `pickle.dumps(forest)`: `ForestBase.__getstate__`, forest.py:259-260. `serialize` (tree.py:443-476) returns the attributes of a forest as they are; pickle then calls
`__getstate__` of each tree in the list `trees`. `x i`: the attributes of tree `i` that `TreeObj` does not contain; `nFeatures`: the field of the compiled trees. -/
def Est.save (x : Nat → TreeExtra F P) (nFeatures : Nat) (e : Est L V K F P G) : SavedForest L V K F P G :=
  { attrs := { e with trees := [] }, trees := e.trees.zipIdx.map fun p => getstate (p.1.dict (x p.2) nFeatures) }

/-- `pickle.loads`: `ForestBase.__setstate__`, forest.py:262-263; `unserialize` (tree.py:479-617) changes no attribute of a forest, since none has one of the four names; pickle
calls `__setstate__` of each tree. `g`: contents of uninitialised memory; `zeroP`: a row of zeros. The generator of numba and the arrays of the node contexts are not saved;
`w` are those of the process that loads. The trees of a regressor have no `dirichlet`; `TreeObj` has that of the forest then. -/
def SavedForest.load [Num F] (zeroP : P) (g : Nat → PickleGarbage) (w : Nat → Work G) (s : SavedForest L V K F P G) : M (Est L V K F P G) := do
  let ts ← s.trees.zipIdx.mapM fun p => do
    let d ← setstate zeroP (g p.2) p.1
    Spec.treeOf (w p.2) s.attrs.dirichlet d
  return { s.attrs with trees := ts }

end Verif
