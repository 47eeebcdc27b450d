import Verif.Model.Repr
import Verif.Model.Call
/-!
Model of `CFunction.pretty_signature` (/repo/pyclibrary/c_library.py:521-527) and of the whole of
`CFunction.__call__` (c_library.py:422-506), with the C function as a parameter: what happens when it raises
(c_library.py:496-506).  The other two messages that are logged there (arguments and `argtypes`) are not
modelled; they are taken to be formatted without an error.
-/
namespace Pyclib

/-- `"".join(l)` on the modifiers of a type: an item that is no string raises `TypeError`. -/
def joinMods : List CMod → Except PyErr Str
  | [] => .ok []
  | .sym s :: ms =>
    match joinMods ms with
    | .error x => .error x
    | .ok r => .ok (s ++ r)
  | _ :: _ => .error .typeError

/-- `"".join(self.sig[0])` (c_library.py:523). -/
def joinType (t : CType) : Except PyErr Str :=
  match joinMods t.mods with
  | .error x => .error x
  | .ok r => .ok (t.spec ++ r)

/-- `"{}".format(s[0])`: a string, or `None`. -/
def nameText : Option Str → Str
  | some n => n
  | none => c%"None"

/-- `"{} {}".format(s[1], s[0])` (c_library.py:525): `str` of a `Type` is its `repr`. -/
def argText (p : Param) : Str := (typePy p.2.1).repr ++ ' ' :: nameText p.1

/-- `", ".join([...])` (c_library.py:525). -/
def joinArgs : List Param → Str
  | [] => []
  | [p] => argText p
  | p :: ps => argText p ++ c%", " ++ joinArgs ps

/-- `pretty_signature` (c_library.py:521-527); `name` is `self.name`. -/
def prettySig (name : Str) (f : CFunc) : Except PyErr Str :=
  match joinType f.ret with
  | .error x => .error x
  | .ok r => .ok (r ++ ' ' :: (name ++ '(' :: (joinArgs f.params ++ c%")")))

/-- What becomes of a call: what it returns (value, arguments and `guessed_args` of the `CallResult`) or
raises, and the signatures that were logged. -/
structure CallEnd (A V : Type) where
  result : Except PyErr (V × List (Passed A) × List Nat)
  logged : List Str

/-- `__call__` (c_library.py:422-506); `run` is the C function, `found` the lookup of the definition named
`lock` (see `lockAttr`; the `with` statement is inside of the `try`).  An error in `pretty_signature` is
raised instead of the error being reported. -/
def runFunc {A V : Type} (e : CtEnv) (n : Nat) (name : Str) (f : CFunc) (found : Except PyErr Unit)
    (run : List (Passed A) → Except PyErr V) (st : CtState) (args : List (PyArg A)) (kws : List (Str × PyArg A)) :
    CallEnd A V × CtState :=
  match prepare e n f st args kws with
  | (.error x, st) => (⟨.error x, []⟩, st)
  | (.ok (as, g), st) =>
    match (if f.lockCall then .error (lockAttr found) else run as : Except PyErr V) with
    | .ok v => (⟨.ok (v, as, g), []⟩, st)
    | .error x =>
      match prettySig name f with
      | .error y => (⟨.error y, []⟩, st)
      | .ok m => (⟨.error x, [m]⟩, st)

end Pyclib
