import Verif.Setup.SaveLoad

/-!
# Model of the names of the files of a saved object

`/repo/nephosem/utils.py:582-598` and the names given at 546-575, 692-727.  `SaveLoad.lean` keeps the parts of file names
in lists; here are the names as they are on the disk.
-/

namespace Verif.Setup.Save

/-- `'.'.join(parts)`. -/
def joinDot : List (List Char) → List Char
  | [] => []
  | [p] => p
  | p :: q :: ps => p ++ '.' :: joinDot (q :: ps)

/-- `_adapt_by_suffix`: `utils.py:597`, whether arrays are compressed, and the ending of their files. -/
def adaptSuffix (fname : List Char) : Bool × List Char :=
  if ".gz".toList.isSuffixOf fname || ".bz2".toList.isSuffixOf fname then (true, "npz".toList) else (false, "npy".toList)

/-- `subname(name, *args)`: `utils.py:598`; the ending is that of the name which was given to `save` or `load`. -/
def subname (fname name : List Char) (args : List (List Char)) : List Char := joinDot (name :: args ++ [(adaptSuffix fname).2])

/-- `cfname`, the name passed on to an inner object: `utils.py:542, 691`. -/
def cfname (name attrib : List Char) : List Char := joinDot [name, attrib]

/-- The name of the file whose parts are `key`: the pickled object itself, or an array of an attribute of an object within
objects. -/
def fileName (fname : List Char) (key : List String) : List Char :=
  match key with
  | [] => fname
  | _ => subname fname fname (key.map String.toList)

end Verif.Setup.Save
