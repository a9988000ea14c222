import Verif.Model.UfoShared
/-! The calls on a `UFOWriter` and on its glyph sets as sequences of calls on the file system (`self.fs`): between two of them other programs can do something. The values
in between are those of the models of the calls (`Model/Ufo.lean`, `Model/Images.lean`, `Model/GlyphSet.lean`, `Model/LayerInfo.lean`, `Model/PlistIO.lean`); that without interruption
the outcome is that of those models is `prog_run` in `Proofs/UfoMethods.lean`. -/
namespace Verif.Ufo
open Verif Verif.IO Verif.Converters Verif.Validators Verif.Kerning

/-- The methods of a PyFilesystem that change something (`__init__.py` and `glifLib.py`, calls on `self.fs`). Simplification: each is done at once, although `makedirs`, `removetree`
and `movedir` do several things; opening, writing and closing a file is one `setbytes`. `copyEntry` is one file or directory in `fs.copy.copy_dir`. -/
inductive Method where
  | setbytes (p : Path) (data : Bytes)
  | remove (p : Path)
  | makedir (p : Path)
  | makedirs (p : Path)
  | removetree (p : Path)
  | removedir (p : Path)
  | movedir (src dst : Path)
  | copyEntry (dst : Path) (e : Path × Node)

/-- A file system after something that changes nothing when it fails. -/
def attempt (fs : FS) : Except Exc FS → FS × Except Exc Unit
  | .error e => (fs, .error e)
  | .ok fs' => (fs', .ok ())

/-- The effect of a method and what it returns or raises, `Model/FS.lean`. -/
def Method.run (fs : FS) : Method → FS × Except Exc Unit
  | .setbytes p d => attempt fs (fs.setbytes p d)
  | .remove p => attempt fs (fs.remove p)
  | .makedir p => attempt fs (fs.makedir p)
  | .makedirs p => attempt fs (fs.makedirs p)
  | .removetree p => attempt fs (fs.removetree p)
  | .removedir p => attempt fs (fs.removedir p)
  | .movedir p q => fs.movedir p q
  | .copyEntry q e => (Ufo.copyEntry q fs e, .ok ())

/-- What a program does: it has a result, or it reads a file (`getbytes`), asks for a path (`exists`) or calls a method that changes something, and goes on with the answer. -/
inductive Prog (α : Type) where
  | ret (a : α)
  | get (p : Path) (k : Except Exc Bytes → Prog α)
  | has (p : Path) (k : Bool → Prog α)
  | call (m : Method) (k : Except Exc Unit → Prog α)

/-- One after the other. -/
def Prog.bind {α β : Type} : Prog α → (α → Prog β) → Prog β
  | .ret a, f => f a
  | .get p k, f => .get p fun r => (k r).bind f
  | .has p k, f => .has p fun r => (k r).bind f
  | .call m k, f => .call m fun r => (k r).bind f

/-- The next thing on the file system. -/
def Prog.next {α : Type} (fs : FS) : Prog α → FS × Prog α
  | .ret a => (fs, .ret a)
  | .get p k => (fs, k (fs.getbytes p))
  | .has p k => (fs, k (fs.exists p))
  | .call m k => ((m.run fs).1, k (m.run fs).2)

/-- Without interruption. -/
def Prog.run {α : Type} : Prog α → FS → FS × α
  | .ret a, fs => (fs, a)
  | .get p k, fs => (k (fs.getbytes p)).run fs
  | .has p k, fs => (k (fs.exists p)).run fs
  | .call m k, fs => (k (m.run fs).2).run (m.run fs).1

/-! ### files -/

/-- `unchanged`, `__init__.py` 1004-1007: the program goes on with the answer. `exists` or `isfile` is asked first, so that a missing file and a directory do not raise. -/
def unchangedP (p : Path) (data : Bytes) (k : Bool → Prog (Except Exc Unit)) : Prog (Except Exc Unit) :=
  .get p fun r => match r with
    | .ok b => k (b == data)
    | .error .resourceNotFound => k false
    | .error .fileExpected => k false
    | .error e => .ret (.error e)

/-- `_getPlist`, `__init__.py` 135-160. -/
def getPlistP (F : FloatCodec) (p : Path) (default : Option PyVal) : Prog (Except Exc PyVal) :=
  .get p fun r => .ret (match r with
    | .error .resourceNotFound => match default with
      | none => .error .ufoLibError
      | some v => .ok v
    | .error _ => .error .ufoLibError
    | .ok b => match loadBytes F b with
      | .error _ => .error .ufoLibError
      | .ok v => .ok v)

/-- `_writePlist`, `__init__.py` 163-198. -/
def writePlistP (F : FloatCodec) (havePrevious : Bool) (p : Path) (v : PyVal) : Prog (Except Exc Unit) :=
  if havePrevious then
    match dumpBytes F v with
    | .error _ => .ret (.error .ufoLibError)
    | .ok data => unchangedP p data fun u => if u then .ret (.ok ()) else .call (.setbytes p data) .ret
  else
    .call (.setbytes p []) fun r => match r with
      | .error e => .ret (.error e)
      | .ok () => match dumpBytes F v with
        | .error _ => .ret (.error .ufoLibError)
        | .ok data => .call (.setbytes p data) .ret

/-- The end of `writeBytesToPath`, `__init__.py` 1008-1015. -/
def putBytesP (p : Path) (data : Bytes) : Prog (Except Exc Unit) :=
  .call (.setbytes p data) fun r => match r with
    | .ok () => .ret (.ok ())
    | .error .fileExpected => .ret (.error .ufoLibError)
    | .error .resourceNotFound => .call (.makedirs p.dropLast) fun r => match r with
      | .error e => .ret (.error e)
      | .ok () => .call (.setbytes p data) .ret
    | .error e => .ret (.error e)

/-- `writeBytesToPath`, `__init__.py` 997-1015. -/
def writeBytesP (havePrevious : Bool) (p : Path) (data : Bytes) : Prog (Except Exc Unit) :=
  if havePrevious then unchangedP p data fun u => if u then .ret (.ok ()) else putBytesP p data
  else putBytesP p data

/-- The loop of `fs.tools.remove_empty`. -/
def removeEmptyP : (revPath : List Str) → Prog (Except Exc Unit)
  | [] => .ret (.ok ())
  | c :: rest => .call (.removedir (rest.reverse ++ [c])) fun r => match r with
    | .error .directoryNotEmpty => .ret (.ok ())
    | .error e => .ret (.error e)
    | .ok () => removeEmptyP rest

/-- The first part of `removePath`, `__init__.py` 1054-1062. -/
def removeNodeP (p : Path) (force : Bool) : Prog (Except Exc Unit) :=
  .call (.remove p) fun r => match r with
    | .ok () => .ret (.ok ())
    | .error .fileExpected => .call (.removetree p) .ret
    | .error .resourceNotFound => if force then .ret (.ok ()) else .ret (.error .ufoLibError)
    | .error e => .ret (.error e)

/-- `removePath`, `__init__.py` 1044-1066. -/
def removePathP (p : Path) (force removeEmptyParents : Bool) : Prog (Except Exc Unit) :=
  (removeNodeP p force).bind fun r => match r with
    | .error e => .ret (.error e)
    | .ok () => if removeEmptyParents then removeEmptyP p.dropLast.reverse else .ret (.ok ())

/-- `fs.copy.copy_dir` into a directory. -/
def copyTreeP (q : Path) : List (Path × Node) → Prog (Except Exc Unit)
  | [] => .ret (.ok ())
  | e :: l => .call (.copyEntry q e) fun r => match r with
    | .error e => .ret (.error e)
    | .ok () => copyTreeP q l

/-- `copyFromReader`, `__init__.py` 977-995. The root always exists. -/
def copyP (src : FS) (p q : Path) : Prog (Except Exc Unit) :=
  if src.exists p = false then .ret (.error .ufoLibError)
  else if q = [] then .ret (.error .ufoLibError)
  else .has q fun x => if x then .ret (.error .ufoLibError)
    else .call (.makedirs q.dropLast) fun r => match r with
      | .error e => .ret (.error e)
      | .ok () => match src.node? p with
        | some (.file d) => .call (.setbytes q d) .ret
        | _ => .call (.makedir q) fun r => match r with
          | .error e => .ret (.error e)
          | .ok () => copyTreeP q (below src p)

/-! ### glyph sets -/

/-- Is there a file for every name? The search of `rebuildContents`, glifLib.py 199-203. -/
def missingP (dir : Path) : List (Str × Str) → Prog Bool
  | [] => .ret false
  | e :: rest => .has (dir ++ [e.2]) fun x => if x then missingP dir rest else .ret true

/-- `rebuildContents`, glifLib.py 178-207. -/
def rebuildP (F : FloatCodec) (gs : GlyphSet.GlyphSet) (validate : Bool) : Prog (Except Exc GlyphSet.GlyphSet) :=
  (getPlistP F (gs.dir ++ [GlyphSet.contentsName]) (some (.dict []))).bind fun r => match r with
    | .error e => .ret (.error e)
    | .ok (.dict d) => match GlyphSet.tableOf d with
      | none => .ret (.error .glifLibError)
      | some t =>
        let new : GlyphSet.GlyphSet := { gs with contents := t.foldl (fun d e => Dict.set d e.1 e.2) [], existing := none, reverse := none }
        if validate then (missingP gs.dir t).bind fun m => .ret (if m then .error .glifLibError else .ok new)
        else .ret (.ok new)
    | .ok _ => .ret (.error .glifLibError)

/-- `GlyphSet.__init__`, glifLib.py 109-173. -/
def openP (F : FloatCodec) (dir : Path) (version : Nat) (validateRead : Bool) : Prog (Except Exc GlyphSet.GlyphSet) :=
  if version = 1 ∨ version = 2 ∨ version = 3 then
    .has (dir ++ [GlyphSet.contentsName]) fun x =>
      rebuildP F { dir := dir, contents := [], existing := none, reverse := none, havePrevious := x, version := version, validateRead := validateRead } validateRead
  else .ret (.error .glifLibError)

/-- The end of `writeGlyph`, glifLib.py 419-426. -/
def storeGlyphP (havePrevious : Bool) (p : Path) (data : Bytes) : Prog (Except Exc Unit) :=
  if havePrevious then unchangedP p data fun u => if u then .ret (.ok ()) else .call (.setbytes p data) .ret
  else .call (.setbytes p data) .ret

/-- The calls on a glyph set: `writeGlyph`, `deleteGlyph`, `getReverseContents`, `writeContents` and `rebuildContents`, glifLib.py 178-229, 359-439. -/
def glyphP (L : Casing) (F : FloatCodec) (gs : GlyphSet.GlyphSet) : GlyphSet.Op → Prog (GlyphSet.GlyphSet × Except Exc Unit)
  | .write naming name fv data => match GlyphSet.glifVersion gs fv with
    | .error e => .ret (gs, .error e)
    | .ok v => match GlyphSet.assignFile L naming gs name with
      | (gs', .error e) => .ret (gs', .error e)
      | (gs', .ok f) => match data v with
        | .error e => .ret (gs', .error e)
        | .ok d => (storeGlyphP gs'.havePrevious (gs'.dir ++ [f]) d).bind fun r => .ret (gs', r)
  | .delete name => match Dict.get? gs.contents name with
    | none => .ret (gs, .error .keyError)
    | some f => .call (.remove (gs.dir ++ [f])) fun r => .ret (match r with
      | .error e => (gs, .error e)
      | .ok () => match GlyphSet.dropExisting gs f with
        | .error e => (gs, .error e)
        | .ok gs1 => match GlyphSet.dropReverse L gs1 f with
          | .error e => (gs1, .error e)
          | .ok gs2 => ({ gs2 with contents := Dict.erase gs2.contents name }, .ok ()))
  | .reverse => .ret ((GlyphSet.getReverseContents L gs).1, .ok ())
  | .save => (writePlistP F gs.havePrevious (gs.dir ++ [GlyphSet.contentsName]) (GlyphSet.contentsVal gs.contents)).bind fun r => .ret (gs, r)
  | .rebuild validate => (rebuildP F gs validate).bind fun r => .ret (match r with
    | .error e => (gs, .error e)
    | .ok gs' => (gs', .ok ()))

/-- `writeLayerInfo`, glifLib.py 253-279. -/
def layerInfoP (F : FloatCodec) (gs : GlyphSet.GlyphSet) (info : Str → Option PyVal) (validate : Bool) : Prog (GlyphSet.GlyphSet × Except Exc Unit) :=
  if gs.version < 3 then .ret (gs, .error .glifLibError)
  else
    let data := GlyphSet.gatherLayerInfo info GlyphSet.layerInfoAttrs
    if !data.isEmpty then
      match (if validate then GlyphSet.validateLayerInfo F data else .ok ()) with
      | .error e => .ret (gs, .error e)
      | .ok _ => (writePlistP F gs.havePrevious (gs.dir ++ [GlyphSet.layerinfoName]) (.dict data)).bind fun r => .ret (gs, r)
    else if gs.havePrevious then
      .has (gs.dir ++ [GlyphSet.layerinfoName]) fun x => if x then .call (.remove (gs.dir ++ [GlyphSet.layerinfoName])) fun r => .ret (gs, r)
        else .ret (gs, .ok ())
    else .ret (gs, .ok ())

/-- Calls on a glyph set. -/
def setP (L : Casing) (F : FloatCodec) (gs : GlyphSet.GlyphSet) : GlyphSet.SetCall → Prog (GlyphSet.GlyphSet × Except Exc Unit)
  | .glyphs op => glyphP L F gs op
  | .layerInfo info validate => layerInfoP F gs info validate

/-! ### writers -/

/-- The end of the property list writers, `__init__.py` 1285-1288. -/
def writeOrRemoveP (F : FloatCodec) (w : Writer) (name : Str) (empty : Bool) (v : PyVal) : Prog (Except Exc Unit) :=
  if !empty then writePlistP F w.havePrevious [name] v
  else if w.havePrevious then removePathP [name] true false
  else .ret (.ok ())

/-- `getGlyphSet`, `__init__.py` 1368-1473. -/
def getGlyphSetP (L : Casing) (F : FloatCodec) (w : Writer) (layerName : Option Str) (defaultLayer validateRead : Bool) : Prog (Writer × Except Exc GlyphSet.GlyphSet) :=
  if w.version < 3 ∧ (defaultLayer = false ∨ layerName ≠ none) then .ret (w, .error .ufoLibError)
  else if layerName = none ∧ defaultLayer = false then .ret (w, .error .ufoLibError)
  else if w.version < 3 then
    .call (.makedir [glyphsName]) fun r => match r with
      | .error e => .ret (w, .error e)
      | .ok () => if w.version = 1 then .ret (w, .error .typeError) else (openP F [glyphsName] 2 validateRead).bind fun g => .ret (w, g)
  else
    let n := layerName.getD (defaultLayerOf w.layers)
    if defaultLayer && defaultConflict w.layers n then .ret (w, .error .ufoLibError)
    else match layerDirectory L w.layers n defaultLayer with
      | .error e => .ret (w, .error e)
      | .ok dir => .call (.makedir [dir]) fun r => match r with
        | .error e => .ret (w, .error e)
        | .ok () => (openP F [dir] 3 validateRead).bind fun g => .ret ({ w with layers := Dict.set w.layers n dir }, g)

/-- `renameGlyphSet`, `__init__.py` 1475-1516. -/
def renameP (L : Casing) (w : Writer) (layerName newLayerName : Option Str) (defaultLayer : Bool) : Prog (Writer × Except Exc Unit) :=
  if w.version < 3 then .ret (w, .ok ())
  else match renameCheck w.layers layerName newLayerName defaultLayer with
    | .error e => .ret (w, .error e)
    | .ok none => .ret (w, .ok ())
    | .ok (some newName) => match findDirectory w.layers layerName with
      | .error e => .ret (w, .error e)
      | .ok oldDir => match renameDirectory L w.layers newName defaultLayer with
        | .error e => .ret (w, .error e)
        | .ok newDir => match layerName with
          | none => .ret (w, .error .keyError)
          | some n => .call (.movedir [oldDir] [newDir]) fun r => .ret ({ w with layers := Dict.set (Dict.erase w.layers n) newName newDir }, r)

/-- `deleteGlyphSet`, `__init__.py` 1518-1528. -/
def deleteP (w : Writer) (layerName : Option Str) : Prog (Writer × Except Exc Unit) :=
  if w.version < 3 then .ret (w, .ok ())
  else match findDirectory w.layers layerName with
    | .error e => .ret (w, .error e)
    | .ok dir => (removePathP [dir] false false).bind fun r => match r with
      | .error e => .ret (w, .error e)
      | .ok () => match layerName with
        | none => .ret (w, .error .keyError)
        | some n => if Dict.has w.layers n then .ret ({ w with layers := Dict.erase w.layers n }, .ok ()) else .ret (w, .error .keyError)

/-- The calls of a writer (`Model/UfoHistory.lean`). -/
def opP (E : FontInfo.Env) (L : Casing) (w : Writer) : Op → Prog (Writer × Except Exc Unit)
  | .maps a b => .ret (if 3 ≤ w.version then w else { w with renameMap := some (flipMaps a b) }, .ok ())
  | .info i validate => match FontInfo.writeInfo E w.version.toNat validate i with
    | .error e => .ret (w, .error e)
    | .ok d => (writePlistP E.F w.havePrevious [fontinfoName] (.dict (d.map fun e => (.str e.1, e.2)))).bind fun r => .ret (w, r)
  | .lib v validate => if validate && !fontLibValidator v then .ret (w, .error .ufoLibError) else (writeOrRemoveP E.F w libName (!truthy v) v).bind fun r => .ret (w, r)
  | .groups g validate => if validate && !groupsValidator (groupsVal g) then .ret (w, .error .ufoLibError)
    else (writeOrRemoveP E.F w groupsName (groupsToWrite w g).isEmpty (groupsVal (groupsToWrite w g))).bind fun r => .ret (w, r)
  | .kerning k validate => if validate && !k.all (fun e => isNumber e.2) then .ret (w, .error .ufoLibError)
    else (writeOrRemoveP E.F w kerningName (kerningToWrite w k).isEmpty (kerningVal (kerningToWrite w k))).bind fun r => .ret (w, r)
  | .features s => if w.version = 1 then .ret (w, .error .ufoLibError)
    else if !s.isEmpty then (writeBytesP w.havePrevious [featuresName] (utf8 s)).bind fun r => .ret (w, r)
    else if w.havePrevious then (removePathP [featuresName] true false).bind fun r => .ret (w, r)
    else .ret (w, .ok ())
  | .glyphSet n d v => (getGlyphSetP L E.F w n d v).bind fun r => .ret (r.1, r.2.map fun _ => ())
  | .rename n m d => renameP L w n m d
  | .delete n => deleteP w n
  | .layerContents o validate =>
    if w.version < 3 then .ret (w, .ok ())
    else
      let order := layerOrderOf w.layers o
      if validate && !(order.all (fun n => Dict.has w.layers n) && (Dict.keys w.layers).all fun n => decide (n ∈ order)) then .ret (w, .error .ufoLibError)
      else match orderedLayers w.layers order with
        | .error e => .ret (w, .error e)
        | .ok t => (writePlistP E.F w.havePrevious [layercontentsName] (layersVal t)).bind fun r => .ret (w, r)
  | .image n d validate => if w.version < 3 then .ret (w, .error .ufoLibError)
    else if validate && !pngValidator d then .ret (w, .error .ufoLibError)
    else (writeBytesP w.havePrevious [imagesName, n] d).bind fun r => .ret (w, r)
  | .removeImage n => if w.version < 3 then .ret (w, .error .ufoLibError) else (removePathP [imagesName, n] false true).bind fun r => .ret (w, r)
  | .bytes p d => (writeBytesP w.havePrevious p d).bind fun r => .ret (w, r)
  | .remove p force re => (removePathP p force re).bind fun r => .ret (w, r)
  | .copy src p q => (copyP src p q).bind fun r => .ret (w, r)
  | .copyImage src n m => if w.version < 3 then .ret (w, .error .ufoLibError) else (copyP src [imagesName, n] [imagesName, m]).bind fun r => .ret (w, r)
  | .glyph gs op => (glyphP L E.F gs op).bind fun r => .ret (w, r.2)
  | .layerInfo gs info validate => (layerInfoP E.F gs info validate).bind fun r => .ret (w, r.2)

/-- A call of a program (`Model/UfoFont.lean`). -/
def User.prog (E : FontInfo.Env) (L : Casing) (u : User) : FontCall → Prog (User × Except Exc Unit)
  | .getGlyphSet n b v => (getGlyphSetP L E.F u.writer n b v).bind fun r => .ret (match r.2 with
    | .error e => ({ u with writer := r.1 }, .error e)
    | .ok gs => ({ writer := r.1, sets := u.sets ++ [gs] }, .ok ()))
  | .ufo op => (opP E L u.writer op).bind fun r => .ret ({ u with writer := r.1 }, r.2)
  | .set i c => match u.sets[i]? with
    | none => .ret (u, .error .indexError)
    | some gs => (setP L E.F gs c).bind fun r => .ret ({ u with sets := u.sets.set i r.1 }, r.2)

/-! ### programs running at the same time -/

/-- A running program: what it holds, the call it is in, the calls it will make, and the outcomes so far. -/
structure Proc where
  user : User
  running : Option (Prog (User × Except Exc Unit))
  todo : List FontCall
  done : List (Except Exc Unit)

/-- The program goes on: it begins its next call, does the next thing on the file system, or ends its call. -/
def Proc.step (E : FontInfo.Env) (L : Casing) (p : Proc) (fs : FS) : Proc × FS :=
  match p.running with
  | some (.ret (u, r)) => ({ p with user := u, running := none, done := p.done ++ [r] }, fs)
  | some c => ({ p with running := some (c.next fs).2 }, (c.next fs).1)
  | none => match p.todo with
    | [] => (p, fs)
    | c :: cs => ({ p with running := some (p.user.prog E L c), todo := cs }, fs)

/-- The program goes on `n` times, and nobody else does. -/
def Proc.steps (E : FontInfo.Env) (L : Casing) (p : Proc) (fs : FS) : Nat → Proc × FS
  | 0 => (p, fs)
  | n + 1 => Proc.steps E L (p.step E L fs).1 (p.step E L fs).2 n

/-- All its calls have ended. -/
def Proc.finished (p : Proc) : Prop := p.running = none ∧ p.todo = []

/-- Programs and the file system they share. -/
structure Running where
  procs : List Proc
  fs : FS

/-- The program number `i` goes on. -/
def Running.step (E : FontInfo.Env) (L : Casing) (s : Running) (i : Nat) : Running :=
  match s.procs[i]? with
  | none => s
  | some p => { procs := s.procs.set i (p.step E L s.fs).1, fs := (p.step E L s.fs).2 }

/-- A schedule: the programs go on in this order. A program that does not occur any more has stopped, possibly in the middle of a call. -/
def Running.run (E : FontInfo.Env) (L : Casing) (s : Running) : List Nat → Running
  | [] => s
  | i :: rest => Running.run E L (s.step E L i) rest

end Verif.Ufo
