import Verif.Model.CtLib
/-
Using a `CTypesCLibrary`: lookups, calls of functions and `arg_c_type`
(/repo/pyclibrary/c_library.py:209-247, 396-519), in any order.
-/
namespace Pyclib

/-- `CFunction.arg_c_type` (c_library.py:508-519): `self.arg_inds` for a name, a list index for an int; any other
object cannot index a list. -/
def argCType (e : CtEnv) (n : Nat) (g : CFunc) (st : CtState) : PyKey → Except PyErr Cls × CtState
  | .str k =>
    match g.argIndex k with
    | none => (.error .keyError, st)
    | some i => ask i
  | .int i =>
    match pyIndex g.params.length i with
    | none => (.error .indexError, st)
    | some i => ask i
  | .other => (.error .typeError, st)
where
  /-- c_library.py:519. -/
  ask (i : Nat) : Except PyErr Cls × CtState :=
    match g.params[i]? with
    | none => (.error .indexError, st)
    | some p => getType e n st p.2.1

/-- What a user does with a library: look something up, call `lib.f(*args, **kws)`, or ask
`lib.f.arg_c_type(k)`. -/
inductive Use (A : Type) where
  | look (q : Look)
  | invoke (f : Str) (args : List (PyArg A)) (kws : List (Str × PyArg A))
  | argType (f : Str) (k : PyKey)

/-- What comes of it. -/
inductive Seen (A : Type) where
  | looked (r : Except PyErr (LObj CtObj))
  | invoked (o : CallOut A)
  | typed (r : Except PyErr Cls)

section
variable {A : Type}

/-- One use.  Simplifications: calling something that is not a function raises `TypeError` (in Python a struct class can
be called, too), asking it for an argument type raises `AttributeError`; the lookup of `lib.lock` for a library with
`lock_calls=True` is not made (it raises in any case, see C45). -/
def useLib (e : CtEnv) (n : Nat) (l : Lib CtObj CtState) (st : LState CtObj CtState) : Use A → Seen A × LState CtObj CtState
  | .look q => let r := l.look st q; (.looked r.1, r.2)
  | .invoke f args kws =>
    match l.getattr st f with
    | (.error x, st) => (.invoked (.raised x), st)
    | (.ok (.obj (.func _ g)), st) =>
      let r := callFunc e n g (.error .nameError) st.b args kws
      (.invoked r.1, { st with b := r.2 })
    | (.ok _, st) => (.invoked (.raised .typeError), st)
  | .argType f k =>
    match l.getattr st f with
    | (.error x, st) => (.typed (.error x), st)
    | (.ok (.obj (.func _ g)), st) =>
      let r := argCType e n g st.b k
      (.typed r.1, { st with b := r.2 })
    | (.ok _, st) => (.typed (.error .attributeError), st)

/-- A sequence of uses. -/
def useAll (e : CtEnv) (n : Nat) (l : Lib CtObj CtState) (st : LState CtObj CtState) : List (Use A) → List (Seen A) × LState CtObj CtState
  | [] => ([], st)
  | u :: us =>
    let r := useLib e n l st u
    let rs := useAll e n l r.2 us
    (r.1 :: rs.1, rs.2)

end

end Pyclib
