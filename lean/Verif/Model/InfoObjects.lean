import Verif.Model.ReadInto
/-! Info objects that are read into more than once and written: `readInfo` (`__init__.py` 460-508) and `writeInfo` (`__init__.py` 1175-1215), called one after another. -/
namespace Verif.ReadInto
open Verif

/-- A loop that calls `readInfo` (`__init__.py` 460-508) of several readers with the same object; the first exception ends it. -/
def readInfos (E : FontInfo.Env) (validate : Bool) : Target → List (FS × Int) → Target × Except Exc Unit
  | t, [] => (t, .ok ())
  | t, (fs, version) :: ufos => match readInfoInto E fs version validate t with
    | (t, .error e) => (t, .error e)
    | (t, .ok ()) => readInfos E validate t ufos

/-- `readInfo` (`__init__.py` 460-508) of one UFO and `writeInfo` (`__init__.py` 1175-1215) to another one, with the same object. -/
def readAndWrite (E : FontInfo.Env) (fs : FS) (version : Int) (w : Ufo.World) (validate : Bool) (t : Target) : Target × Ufo.World × Except Exc Unit :=
  match readInfoInto E fs version validate t with
  | (t, .error e) => (t, w, .error e)
  | (t, .ok ()) => (t, Ufo.writeInfo E w t.attrs validate)

end Verif.ReadInto
