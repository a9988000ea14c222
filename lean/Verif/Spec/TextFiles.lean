import Verif.Model.TextFiles
/-! What reading a text in pieces and by lines means: C136. -/
namespace Verif.Spec.TextFiles
open Verif

/-- `l` is the first line of `l ++ rest`: nothing in it ends a line before its end, and it goes on to the end of the line or of the text. -/
def FirstLine (l rest : Str) : Prop :=
  ∃ body e, l = body ++ e ∧ '\n' ∉ body ∧ '\r' ∉ body ∧
    (e = c!"\n" ∨ e = c!"\r\n" ∨ (e = c!"\r" ∧ rest.head? ≠ some '\n') ∨ (e = [] ∧ rest = []))

/-- What the calls return for the text: each returns what comes next, of the right length. -/
inductive Returns : Str → List Verif.TextFiles.Call → List Str → Str → Prop
  | nil (t : Str) : Returns t [] [] t
  | read (t : Str) (n : Nat) (cs : List Verif.TextFiles.Call) (os : List Str) (rest : Str) (h : Returns (t.drop n) cs os rest) : Returns t (.read n :: cs) (t.take n :: os) rest
  | readline (l t : Str) (cs : List Verif.TextFiles.Call) (os : List Str) (rest : Str) (hl : FirstLine l t) (h : Returns t cs os rest) : Returns (l ++ t) (.readline :: cs) (l :: os) rest
  | all (t : Str) (cs : List Verif.TextFiles.Call) (os : List Str) (rest : Str) (h : Returns [] cs os rest) : Returns t (.all :: cs) (t :: os) rest

/-- A call did not come to the end of the file: it returned as many characters as were asked for, or a line with its end (`read()` always comes to the end). -/
def Full : Verif.TextFiles.Call → Str → Prop
  | .read n, o => o.length = n
  | .readline, o => o.getLast? = some '\n' ∨ o.getLast? = some '\r'
  | .all, _ => False

end Verif.Spec.TextFiles
