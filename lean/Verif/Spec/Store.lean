import Verif.Model.Store
/-
Specification of the definition tables: lookups only.
-/
namespace Pyclib.Spec
open Pyclib
variable {V : Type}

/-- The value recorded for (file, kind, name) in `parser.file_defs`. -/
def recorded (s : Store V) (f : Option Str) (k : Kind) (n : Str) : Option V :=
  (dget s.fileDefs f).bind fun e => dget (e k) n

/-- The value recorded for (kind, name) in one file of import data. -/
def recIn (d : Kind → Option (Dict Str V)) (k : Kind) (n : Str) : Option V :=
  (d k).bind fun e => dget e n

/-- The value recorded for (kind, name) in the last file of the import data that has one. -/
def lastRec : RawDefs V → Kind → Str → Option V
  | [], _, _ => none
  | (_, d) :: r, k, n => (lastRec r k n).or (recIn d k n)

/-- The value recorded under a given file of the import data. -/
def recAt (data : RawDefs V) (f : Option Str) (k : Kind) (n : Str) : Option V :=
  (dget data f).bind fun d => recIn d k n

/-- Import data as written by a parser: all kinds present, dictionaries have unique keys, files are
identified by base names. -/
structure GoodData (data : RawDefs V) : Prop where
  complete : ∀ p ∈ data, ∀ k, ∃ names, p.2 k = some names ∧ DNodup names
  files : DNodup data
  base : ∀ p ∈ data, baseOf p.1 = p.1

/-- Meaning of a history for one (kind, name): the last definition, unless removed since. -/
def visStep (k : Kind) (n : Str) (acc : Option V) : Op V → Option V
  | .add k' n' v => if k' = k ∧ n' = n then some v else acc
  | .rem k' n' => if k' = k ∧ n' = n then none else acc
  | .file _ => acc
  | .imp d => (lastRec d k n).or acc

/-- The visible value of (kind, name) after a history starting from nothing. -/
def visible (ops : List (Op V)) (k : Kind) (n : Str) : Option V := ops.foldl (visStep k n) none

/-- All imports in a history are of well-formed data. -/
def GoodImports (ops : List (Op V)) : Prop := ∀ d, Op.imp d ∈ ops → GoodData d

end Pyclib.Spec
