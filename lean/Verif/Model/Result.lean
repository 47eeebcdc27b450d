import Verif.Model.Session
/-
What comes back from a call: the memory behind the arguments and the `CallResult`
(/repo/pyclibrary/c_library.py:496-625, /repo/pyclibrary/backends/ctypes.py:161-171, 350-362).

Memory consists of numbered blocks with contents of an arbitrary type `R`; the C function is an arbitrary function of
its arguments and the memory.  Simplification: a block is the memory of one ctypes object; that the parts of a struct
or array lie inside it is not modelled.
-/
namespace Pyclib

/-- Memory: the contents of the blocks and the number of blocks in use. -/
structure Mem (R : Type) where
  cell : Nat → R
  size : Nat

/-- Python objects met when a call returns: the caller's objects; `None`; the Python value of the contents `r` of a
simple object (`val p r` for class `p`); a ctypes object in a block; a pointer object made by `pointer(obj)`, with
the class and block of `obj`; an attribute of an object; the text in a character array. -/
inductive PyV (A R : Type) where
  | given (a : A)
  | none
  | val (p : Str) (r : R)
  | inst (c : Cls) (b : Nat)
  | ref (c : Cls) (b : Nat)
  | attr (v : PyV A R) (n : Str)
  | text (c : Cls) (b : Nat)

section
variable {A R : Type}

/-- A new block with contents `r`. -/
def Mem.alloc (m : Mem R) (r : R) : Mem R := ⟨fun b => if b = m.size then r else m.cell b, m.size + 1⟩

/-- The class a pointer class points to. -/
def Cls.target : Cls → Cls
  | .ptr c => c
  | c => c

/-- The arguments as objects: `cls()` for NULL (c_library.py:483) and `pointer(cls())` for an omitted argument
(ctypes.py:362) are new objects with contents `z` (zero). -/
def passAll (z : R) : Mem R → List (Passed A) → List (PyV A R) × Mem R
  | m, [] => ([], m)
  | m, .obj a :: as => let r := passAll z m as; (.given a :: r.1, r.2)
  | m, .nul c :: as => let r := passAll z (m.alloc z) as; (.inst c m.size :: r.1, r.2)
  | m, .auto c :: as => let r := passAll z (m.alloc z) as; (.ref c.target m.size :: r.1, r.2)

/-- What ctypes makes of the result: `None` for `restype = None`, a Python value for a simple class, else a new
object. -/
def retV (m : Mem R) (c : Cls) (r : R) : PyV A R × Mem R :=
  match c with
  | .void => (.none, m)
  | .prim p => (.val p r, m)
  | c => (.inst c m.size, m.alloc r)

/-- `hasattr` for an instance of Structure or Union class number `id`: a field of that name, or one of an anonymous
field (at most `k` deep). -/
def hasField (classes : List CompCls) (n : Str) : Nat → Nat → Bool
  | 0, _ => false
  | k + 1, id =>
    match classes[id]? with
    | none => false
    | some c =>
      match c.fields with
      | none => false
      | some fs => fs.any (fun f => decide (f.1 = n) || (decide (f.1 ∈ c.anon) && match f.2.1 with
          | .comp id' => hasField classes n k id'
          | _ => false))

/-- The classes of characters, whose arrays have an attribute `value`. -/
def isCharCls (c : Cls) : Bool :=
  match c with
  | .prim p => p == c%"c_char" || p == c%"c_wchar"
  | _ => false

/-- `arg[0]` and `_extract_val_` (c_library.py:592-595, ctypes.py:161-171).  Indexing a pointer to a simple object
gives its Python value, else the object itself; indexing anything else is not met (only generated arguments are
indexed).  `value` is an attribute of simple objects, of character arrays, and of structs and unions with a member
of that name; `ext` is `_extract_val_` of the caller's objects. -/
def readOps (classes : List CompCls) (ext : A → PyV A R) (m : Mem R) : ValOps (PyV A R) where
  deref
    | .ref (.prim p) b => .ok (.val p (m.cell b))
    | .ref c b => .ok (.inst c b)
    | _ => .error .typeError
  extract
    | .given a => ext a
    | .inst (.prim p) b => .val p (m.cell b)
    | .inst (.comp id) b =>
      if hasField classes c%"value" (classes.length + 1) id then .attr (.inst (.comp id) b) c%"value" else .inst (.comp id) b
    | .inst (.arr n c) b => if isCharCls c then .text (.arr n c) b else .inst (.arr n c) b
    | v => v

/-- A C function: from the arguments and the memory to the contents of the memory and the result. -/
abbrev CProc (A R : Type) := List (PyV A R) → Mem R → (Nat → R) × R

/-- The C function is called and its `CallResult` made (c_library.py:496-506). -/
def runProc (z : R) (proc : CProc A R) (g : CFunc) (as : List (Passed A)) (gs : List Nat) (m : Mem R) :
    CRes (PyV A R) × Mem R :=
  let vs := passAll z m as
  let out := proc vs.1 vs.2
  let rv := retV ⟨out.1, vs.2.size⟩ g.resType out.2
  (⟨rv.1, vs.1, g.params, gs⟩, rv.2)

/-- `lib.f(*args, **kws)` including the C function. -/
def runLib (e : CtEnv) (n : Nat) (l : Lib CtObj CtState) (z : R) (procs : Str → CProc A R) (st : LState CtObj CtState)
    (m : Mem R) (f : Str) (args : List (PyArg A)) (kws : List (Str × PyArg A)) :
    Except PyErr (CRes (PyV A R)) × LState CtObj CtState × Mem R :=
  match l.getattr st f with
  | (.error x, st) => (.error x, st, m)
  | (.ok (.obj (.func x g)), st) =>
    match callFunc e n g (.error .nameError) st.b args kws with
    | (.raised x, b) => (.error x, { st with b := b }, m)
    | (.called as gs, b) => let r := runProc z (procs x) g as gs m; (.ok r.1, { st with b := b }, r.2)
  | (.ok _, st) => (.error .typeError, st, m)

end

end Pyclib
