import Verif.Setup.SaveLoad

/-!
# Saving to an open file (`nephosem/utils.py` 744-785, `SaveLoad.save`)
-/

namespace Verif.Setup.Save

open Verif.Py

/-- What `save` is given: a file name, or a file that is open for writing. -/
inductive Target where
  | name
  | handle

/-- `save(fname_or_handle, ...)`, utils.py 744-785.  An open file: the object is pickled as it is, and the
options are not used (781).  A name: pickling into it raises a `TypeError` before anything is written, and
`_smart_save` is called (783-784).  The disk is that of the files whose names begin with the name of the file
opened (`[]` is that file itself).  Left out: objects that cannot be pickled, and open files that are not files
of the disk. -/
def saveTo (ok : Nat → Bool) (t : Target) (o : Opts) (sep : Option (List String)) (v : Val) (st : St) :
    St × Val × Bool :=
  match t with
  | .handle =>
    let w := write ok [] (.pickled v) st
    (w.1, v, w.2)
  | .name => smartSave ok o sep v st

end Verif.Setup.Save
