import Verif.Model.Utils
/-
Specification of searches, PE images and initialisation (C53-C57), written without the functions of the
model (only its data types).
-/
namespace Pyclib.Spec

/-- `x` is the first element of `l` with property `P`. -/
def FirstOf {α : Type} (P : α → Prop) (l : List α) (x : α) : Prop :=
  ∃ pre post, l = pre ++ x :: post ∧ P x ∧ ∀ y ∈ pre, ¬ P y

/-- The files named `name` in the directories `ds`. -/
def Candidates (fs : SearchFS) (name : Str) (ds : List Str) : List Str := ds.map (fun d => fs.join d name)

/-- The directories registered for headers, oldest first, by a history of calls: those that existed when
they were registered. -/
def registeredHeaders : List SearchOp → List Str
  | [] => []
  | .addHeader fs ds :: os => ds.filter fs.isDir ++ registeredHeaders os
  | _ :: os => registeredHeaders os

/-- The directories registered for libraries. -/
def registeredLibraries : List SearchOp → List Str
  | [] => []
  | .addLibrary fs ds :: os => ds.filter fs.isDir ++ registeredLibraries os
  | _ :: os => registeredLibraries os

/-- The program does not reach into the module: the lists it passes and changes are its own. -/
def OwnLists : SearchOp → Prop
  | .findHeader _ _ (some r) => 2 ≤ r
  | .findLibrary _ _ (some r) => 2 ≤ r
  | .user r _ => 2 ≤ r
  | _ => True

/-- The standard directories of the platform for headers. -/
def standardDirs (platform : Str) : List Str :=
  if platform = c%"darwin" then
    [c%"/usr/local/include", c%"/usr/include", c%"/System/Library/Frameworks", c%"/Library/Frameworks"]
  else if platform = c%"linux2" then [c%"/usr/local/include", c%"/usr/target/include", c%"/usr/include"]
  else []

/-- Byte `i` of `b` is `v`. -/
def ByteAt (b : List UInt8) (i v : Nat) : Prop := ∃ x, b[i]? = some x ∧ x.toNat = v

/-- `b` is a PE image for machine `m`: `MZ` at 0, at 60 the signed 32-bit offset `off` of the bytes
`PE\0\0`, followed by the 16-bit word `m`, all little endian. -/
def IsPE (b : List UInt8) (off m : Nat) : Prop :=
  64 ≤ b.length ∧ ByteAt b 0 0x4D ∧ ByteAt b 1 0x5A ∧
  (∃ w x y z, ByteAt b 60 w ∧ ByteAt b 61 x ∧ ByteAt b 62 y ∧ ByteAt b 63 z ∧
    off = w + 256 * x + 65536 * y + 16777216 * z) ∧ off < 2147483648 ∧
  ByteAt b off 0x50 ∧ ByteAt b (off + 1) 0x45 ∧ ByteAt b (off + 2) 0 ∧ ByteAt b (off + 3) 0 ∧
  ∃ l h, ByteAt b (off + 4) l ∧ ByteAt b (off + 5) h ∧ m = l + 256 * h

/-- As `IsPE`, but any two bytes may follow `PE`. -/
def LooksPE (b : List UInt8) (off m : Nat) : Prop :=
  64 ≤ b.length ∧ ByteAt b 0 0x4D ∧ ByteAt b 1 0x5A ∧
  (∃ w x y z, ByteAt b 60 w ∧ ByteAt b 61 x ∧ ByteAt b 62 y ∧ ByteAt b 63 z ∧
    off = w + 256 * x + 65536 * y + 16777216 * z) ∧ off < 2147483648 ∧
  ByteAt b off 0x50 ∧ ByteAt b (off + 1) 0x45 ∧
  ∃ l h, ByteAt b (off + 4) l ∧ ByteAt b (off + 5) h ∧ m = l + 256 * h

/-- The word sizes of a machine: I386 (0x14C), IA64 (0x200), AMD64 (0x8664). -/
def machineBits (m : Nat) : List Nat :=
  if m = 0x14C then [32] else if m = 0x200 ∨ m = 0x8664 then [64] else []

end Pyclib.Spec
