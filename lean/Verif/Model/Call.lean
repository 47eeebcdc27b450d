import Verif.Model.Ctypes
/-
Model of `CFunction` and `CallResult` (/repo/pyclibrary/c_library.py:396-625) on top of the ctypes backend.

Objects that the caller passes are values of an arbitrary type `A`.  The C function itself is not modelled:
a call either raises before it, or reaches it with a list of arguments.
-/
namespace Pyclib

/-- An argument written by the caller: `None`, the marker `lib.Null`, or an object. -/
inductive PyArg (A : Type) where
  | none
  | null
  | obj (a : A)

/-- An entry of `arg_list` (c_library.py:436-463): `None` (nothing given), `lib.Null`, or an object. -/
inductive Slot (A : Type) where
  | missing
  | null
  | obj (a : A)

/-- An argument handed to the C function: the caller's object, `cls()` for a NULL pointer, or the object
`_get_pointer` made, given by its class. -/
inductive Passed (A : Type) where
  | obj (a : A)
  | nul (c : Cls)
  | auto (c : Cls)

/-- A `CFunction` (c_library.py:399-420): `self.sig`, `lock_call`, `res_type` and `arg_types`; the last two
become `restype` and `argtypes` of the ctypes function (ctypes.py:388-391). -/
structure CFunc where
  ret : CType
  params : List Param
  lockCall : Bool
  resType : Cls
  argTypes : List Cls

/-- `s[1] != ("void",)` (c_library.py:409): tuples are compared, qualifiers do not count. -/
def isVoidParam (p : Param) : Bool := decide (p.2.1.spec = c%"void") && p.2.1.mods.isEmpty

/-- `conv in self.sig[0]` (c_library.py:411). -/
def hasConv (t : CType) : Bool :=
  isConv t.spec || t.mods.any (fun m => match m with | .sym s => isConv s | _ => false)

/-- `CFunction.__init__` (c_library.py:399-420) with `_init_function` (ctypes.py:388-391): `Type` has no
method `remove`; `None` among `argtypes` raises `TypeError`. -/
def initFunc (e : CtEnv) (n : Nat) (st : CtState) (ret : CType) (params : List Param) (lock : Bool) :
    Except PyErr CFunc × CtState :=
  let ps := params.filter (fun p => !isVoidParam p)
  if hasConv ret then (.error .attributeError, st)
  else
    match getType e n st ret with
    | (.error x, st) => (.error x, st)
    | (.ok c, st) =>
      match argClasses (getType e n) st ps with
      | (.error x, st) => (.error x, st)
      | (.ok cs, st) => if cs.any Cls.isVoid then (.error .typeError, st) else (.ok ⟨ret, ps, lock, c, cs⟩, st)

section
variable {A : Type}

/-- `None` becomes `lib.Null` (c_library.py:441-444, 458-461). -/
def PyArg.slot : PyArg A → Slot A
  | .none => .null
  | .null => .null
  | .obj a => .obj a

/-- `self.req_args` (c_library.py:416). -/
def CFunc.req (f : CFunc) : Nat := (f.params.filter (fun p => p.2.2.isNone)).length

/-- The positional arguments (c_library.py:437-444). -/
def fillPos (f : CFunc) (args : List (PyArg A)) : List (Slot A) :=
  args.map PyArg.slot ++ List.replicate (f.req - args.length) .missing

/-- `self.arg_inds` (c_library.py:418): the last parameter with a name wins. -/
def argIndexFrom (k : Str) : Nat → List Param → Option Nat
  | _, [] => none
  | i, p :: ps =>
    match argIndexFrom k (i + 1) ps with
    | some j => some j
    | none => if p.1 = some k then some i else none

/-- `self.arg_inds.get(k)`. -/
def CFunc.argIndex (f : CFunc) (k : Str) : Option Nat := argIndexFrom k 0 f.params

/-- `arg_list[ind] = x` after stretching the list (c_library.py:455-461). -/
def setSlot (l : List (Slot A)) (i : Nat) (x : Slot A) : List (Slot A) :=
  listSet (l ++ List.replicate (i + 1 - l.length) .missing) i x

/-- The keyword arguments (c_library.py:447-461). -/
def fillKw (f : CFunc) : List (Slot A) → List (Str × PyArg A) → Except PyErr (List (Slot A))
  | l, [] => .ok l
  | l, (k, v) :: kws =>
    match f.argIndex k with
    | none => .error .typeError
    | some i => fillKw f (setSlot l i v.slot) kws

/-- The body of the loop over the missing arguments (c_library.py:472-494): an `AssertionError` becomes a
`TypeError`. -/
def completeArg (e : CtEnv) (n : Nat) (f : CFunc) (st : CtState) (i : Nat) :
    Slot A → Except PyErr (Passed A) × CtState
  | .obj a => (.ok (.obj a), st)
  | s =>
    match f.params[i]? with
    | none => (.error .indexError, st)
    | some p =>
      match evalType e.cfg e.tm p.2.1 with
      | .error x => (.error (noAssert x), st)
      | .ok r =>
        match s with
        | .null =>
          if r.mods = [] then (.error .typeError, st)
          else
            match getType e n st p.2.1 with
            | (.error x, st) => (.error (noAssert x), st)
            | (.ok c, st) => (.ok (.nul c), st)
        | _ =>
          match getPointer e n st r p.2.1 with
          | (.error x, st) => (.error (noAssert x), st)
          | (.ok c, st) => (.ok (.auto c), st)
where
  /-- c_library.py:490-494. -/
  noAssert (x : PyErr) : PyErr := if x = .assertionError then .typeError else x

/-- The loop over the missing arguments from index `i` on (c_library.py:463-494): arguments and
`guessed_args`. -/
def complete (e : CtEnv) (n : Nat) (f : CFunc) : CtState → Nat → List (Slot A) →
    Except PyErr (List (Passed A) × List Nat) × CtState
  | st, _, [] => (.ok ([], []), st)
  | st, i, s :: l =>
    match completeArg e n f st i s with
    | (.error x, st) => (.error x, st)
    | (.ok a, st) =>
      match complete e n f st (i + 1) l with
      | (.error x, st) => (.error x, st)
      | (.ok (as, g), st) => (.ok (a :: as, (match a with | .auto _ => i :: g | _ => g)), st)

/-- The argument list handed to the C function, and `guessed_args` (c_library.py:436-494). -/
def prepare (e : CtEnv) (n : Nat) (f : CFunc) (st : CtState) (args : List (PyArg A)) (kws : List (Str × PyArg A)) :
    Except PyErr (List (Passed A) × List Nat) × CtState :=
  match fillKw f (fillPos f args) kws with
  | .error x => (.error x, st)
  | .ok l => complete e n f st 0 l

/-- What becomes of a call. -/
inductive CallOut (A : Type) where
  | raised (e : PyErr)
  | called (args : List (Passed A)) (guessed : List Nat)

/-- `self.lib.lock` (c_library.py:498): the lock is stored as `_lock_` (c_library.py:200), so the attribute
is looked up among the definitions; `found` is the result of that lookup.  Nothing found there is a context
manager, so the `with` statement raises. -/
def lockAttr (found : Except PyErr Unit) : PyErr :=
  match found with
  | .error x => x
  | .ok () => .typeError

/-- `CFunction.__call__` (c_library.py:422-506) up to the C function; `found` is the lookup of the
definition named `lock`. -/
def callFunc (e : CtEnv) (n : Nat) (f : CFunc) (found : Except PyErr Unit) (st : CtState) (args : List (PyArg A))
    (kws : List (Str × PyArg A)) : CallOut A × CtState :=
  match prepare e n f st args kws with
  | (.error x, st) => (.raised x, st)
  | (.ok (as, g), st) => if f.lockCall then (.raised (lockAttr found), st) else (.called as g, st)

end

/-! ### CallResult -/

/-- A `CallResult` (c_library.py:571-576): return value, arguments, names of the parameters, indices of
auto-generated arguments. -/
structure CRes (V : Type) where
  rval : V
  args : List V
  params : List Param
  guessed : List Nat

/-- Operations on Python objects that reading needs: `arg[0]` and `lib._extract_val_` (ctypes.py:161-171). -/
structure ValOps (V : Type) where
  deref : V → Except PyErr V
  extract : V → V

/-- The index of a result: an int, a str, or something else. -/
inductive PyKey where
  | int (i : Int)
  | str (s : Str)
  | other

section
variable {V : Type}

/-- Python list indexing with an int, negative numbers counting from the end. -/
def pyIndex (len : Nat) (i : Int) : Option Nat :=
  if 0 ≤ i then (if i < len then some i.toNat else none)
  else if -(len : Int) ≤ i then some (len + i).toNat else none

/-- `find_arg` (c_library.py:606-613): the first parameter with that name. -/
def findArg (ps : List Param) (k : Str) : Except PyErr Nat :=
  match ps.findIdx? (fun p => p.1 = some k) with
  | some i => .ok i
  | none => .error .keyError

/-- `__getitem__` once the index is an int (c_library.py:583-595). -/
def CRes.at (o : ValOps V) (r : CRes V) (i : Int) : Except PyErr V :=
  match pyIndex r.args.length i with
  | none => .error .indexError
  | some j =>
    match r.args[j]? with
    | none => .error .indexError
    | some a =>
      if i ∈ r.guessed.map (fun (g : Nat) => (g : Int)) then
        match o.deref a with
        | .error x => .error x
        | .ok a => .ok (o.extract a)
      else .ok (o.extract a)

/-- `__getitem__` (c_library.py:583-595). -/
def CRes.get (o : ValOps V) (r : CRes V) : PyKey → Except PyErr V
  | .int i => r.at o i
  | .str s =>
    match findArg r.params s with
    | .error x => .error x
    | .ok i => r.at o i
  | .other => .error .valueError

/-- `__setitem__` (c_library.py:597-604). -/
def CRes.set (r : CRes V) (k : PyKey) (v : V) : Except PyErr (CRes V) :=
  match k with
  | .int i => put i
  | .str s =>
    match findArg r.params s with
    | .error x => .error x
    | .ok i => put i
  | .other => .error .valueError
where
  /-- `self.args[n] = val`. -/
  put (i : Int) : Except PyErr (CRes V) :=
    match pyIndex r.args.length i with
    | none => .error .indexError
    | some j => .ok { r with args := listSet r.args j v }

/-- `__call__` (c_library.py:578-581): a `Type` never equals a list, so the first test is never true. -/
def CRes.value (o : ValOps V) (r : CRes V) : V := o.extract r.rval

/-- `__iter__` (c_library.py:615-617): the value, then the elements in order. -/
def CRes.iter (o : ValOps V) (r : CRes V) : V × List (Except PyErr V) :=
  (r.value o, (List.range r.args.length).map (fun (i : Nat) => r.get o (.int i)))

/-- `auto` (c_library.py:619-625): stops at the first exception. -/
def CRes.auto (o : ValOps V) (r : CRes V) : Except PyErr (List V) :=
  r.guessed.mapM (fun (i : Nat) => r.get o (.int i))

end

/-! ### Threads -/

/-- Where a thread is: between calls, waiting for or holding the lock in the C function, or not holding a
lock in the C function. -/
inductive Phase where
  | idle
  | inside
  deriving DecidableEq

/-- The threads and the owner of the library's lock. -/
structure Threads where
  phase : Nat → Phase
  owner : Option Nat

/-- What `with self.lib.lock` (c_library.py:498) evaluates to: an exception, or the lock.  For the code as
it is, it is the exception (`lockAttr`). -/
inductive LockExpr where
  | raises (e : PyErr)
  | lock

/-- One step of some thread `i` calling a function (c_library.py:496-501): enter the C function or leave
it.  A call that raises leaves the state as it is. -/
inductive ThreadStep (lockCall : Bool) (lk : LockExpr) : Threads → Threads → Prop
  | enterFree (s : Threads) (i : Nat) (hl : lockCall = false) (hi : s.phase i = .idle) :
      ThreadStep lockCall lk s { s with phase := fun j => if j = i then .inside else s.phase j }
  | leaveFree (s : Threads) (i : Nat) (hl : lockCall = false) (hi : s.phase i = .inside) :
      ThreadStep lockCall lk s { s with phase := fun j => if j = i then .idle else s.phase j }
  | raise (s : Threads) (i : Nat) (e : PyErr) (hl : lockCall = true) (hk : lk = .raises e) (hi : s.phase i = .idle) :
      ThreadStep lockCall lk s s
  | enter (s : Threads) (i : Nat) (hl : lockCall = true) (hk : lk = .lock) (hi : s.phase i = .idle) (ho : s.owner = none) :
      ThreadStep lockCall lk s ⟨fun j => if j = i then .inside else s.phase j, some i⟩
  | leave (s : Threads) (i : Nat) (hl : lockCall = true) (hk : lk = .lock) (hi : s.phase i = .inside) (ho : s.owner = some i) :
      ThreadStep lockCall lk s ⟨fun j => if j = i then .idle else s.phase j, none⟩

/-- Any interleaving, from the state in which nobody calls. -/
inductive ThreadRun (lockCall : Bool) (lk : LockExpr) : Threads → Prop
  | start : ThreadRun lockCall lk ⟨fun _ => .idle, none⟩
  | step (s s' : Threads) (h : ThreadRun lockCall lk s) (hs : ThreadStep lockCall lk s s') : ThreadRun lockCall lk s'

end Pyclib
