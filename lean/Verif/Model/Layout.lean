import Verif.Model.Ctypes
/-
Sizes, alignments and offsets of the classes made by the ctypes backend.

`_get_struct` sets `_pack_` and `_fields_` (/repo/pyclibrary/backends/ctypes.py:318-346); the layout is then computed by
ctypes itself (CPython, `PyCStructUnionType_update_stgdict` and `PyCField_FromDesc`), which is modelled here: it is not part of /repo.
Sizes and alignments of the simple classes and of pointers are parameters.  Simplification: no layout for
fields with a width, which pyclibrary makes of members with a default value.
-/
namespace Pyclib

/-- `sizeof` and alignment of the simple classes, and of pointers. -/
structure CtSizes where
  prims : Str → Option (Nat × Nat)
  ptr : Nat × Nat

/-- The alignment of a field: limited by `_pack_`, unless that is 0. -/
def fieldAlign (pack : Option Nat) (al : Nat) : Nat :=
  match pack with
  | none => al
  | some p => if p = 0 then al else min p al

/-- The offset of a field after the first `o` bytes. -/
def bump (al o : Nat) : Nat := if al ≠ 0 ∧ o % al ≠ 0 then o + (al - o % al) else o

/-- The fields of a Structure: offsets, and the number of bytes used. -/
def structLoop (pack : Option Nat) : Nat → List (Nat × Nat) → List Nat × Nat
  | o, [] => ([], o)
  | o, f :: fs =>
    let p := bump (fieldAlign pack f.2) o
    let r := structLoop pack (p + f.1) fs
    (p :: r.1, r.2)

/-- `total_align`. -/
def totalAlign (pack : Option Nat) (fs : List (Nat × Nat)) : Nat := fs.foldl (fun a f => max (fieldAlign pack f.2) a) 1

/-- `aligned_size`. -/
def alignedSize (size al : Nat) : Nat := (size + al - 1) / al * al

/-- Offsets, size and alignment of a Structure or Union with fields `fs`. -/
def compLayout (union : Bool) (pack : Option Nat) (fs : List (Nat × Nat)) : List Nat × Nat × Nat :=
  let al := totalAlign pack fs
  if union then (fs.map (fun _ => 0), alignedSize (fs.foldl (fun m f => max f.1 m) 0) al, al)
  else let r := structLoop pack 0 fs; (r.1, alignedSize r.2 al, al)

/-- Fields without width. -/
def plainField (f : Str × Cls × PVal) : Bool :=
  match f.2.2 with
  | .none => true
  | _ => false

/-- `sizeof(c)` and `alignment(c)`, at most `k` classes deep. -/
def clsLayout (z : CtSizes) (classes : List CompCls) : Nat → Cls → Option (Nat × Nat)
  | 0, _ => none
  | k + 1, c =>
    match c with
    | .void => none
    | .prim p => z.prims p
    | .ptr _ => some z.ptr
    | .fn _ _ _ => some z.ptr
    | .arr n c => (clsLayout z classes k c).map (fun r => (n.toNat * r.1, r.2))
    | .comp id =>
      match classes[id]? with
      | none => none
      | some c =>
        match c.fields with
        | none => none
        | some fs =>
          if fs.all plainField then
            (fs.mapM (fun f => clsLayout z classes k f.2.1)).map (fun l => (compLayout c.union c.pack l).2)
          else none

/-- The offsets of the fields of Structure or Union class number `id` (`getattr(cls, name).offset`). -/
def clsOffsets (z : CtSizes) (classes : List CompCls) (k id : Nat) : Option (List Nat) :=
  match classes[id]? with
  | none => none
  | some c =>
    match c.fields with
    | none => none
    | some fs =>
      if fs.all plainField then
        (fs.mapM (fun f => clsLayout z classes k f.2.1)).map (fun l => (compLayout c.union c.pack l).1)
      else none

end Pyclib
