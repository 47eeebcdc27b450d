import Verif.Model.Preproc
/-
Specification of conditional compilation and structure packing, independent of the if/hit stacks of
the implementation.  Only the line type and the macro semantics interface are used.
-/
namespace Pyclib.Spec
open Pyclib

variable {E : Type}

/-- The code texts among the output lines. -/
def codes (os : List Out) : List Str :=
  os.filterMap (fun o => match o with | .code s => some s | .blank => none)

/-! ### Conditional trees (C17) -/

mutual
/-- Well nested text: ordinary lines and conditionals. -/
inductive Block where
  | nil
  | leaf (l : Line) (rest : Block)
  | cond (c : Str) (body : Block) (chain : Chain) (rest : Block)
/-- What follows the first branch of a conditional. -/
inductive Chain where
  | endif
  | els (body : Block)
  | elif (c : Str) (body : Block) (tail : Chain)
end

mutual
/-- The lines of a block. -/
def Block.lines : Block → List Line
  | .nil => []
  | .leaf l rest => l :: rest.lines
  | .cond c body chain rest => .dif c :: (body.lines ++ (chain.lines ++ rest.lines))
/-- The lines of a chain, up to its `#endif`. -/
def Chain.lines : Chain → List Line
  | .endif => [.dendif]
  | .els body => .delse :: (body.lines ++ [.dendif])
  | .elif c body tail => .delif c :: (body.lines ++ tail.lines)
end

/-- Lines that are not conditional directives and not a `#define`/`#undef` without a name. -/
def Plain : Line → Prop
  | .dif _ | .delif _ | .delse | .dendif | .badName => False
  | _ => True

mutual
/-- Every ordinary line of the block is plain. -/
def Block.Ok : Block → Prop
  | .nil => True
  | .leaf l rest => Plain l ∧ rest.Ok
  | .cond _ body chain rest => body.Ok ∧ chain.Ok ∧ rest.Ok
/-- Every ordinary line of the chain is plain. -/
def Chain.Ok : Chain → Prop
  | .endif => True
  | .els body => body.Ok
  | .elif _ body tail => body.Ok ∧ tail.Ok
end

/-- Effect of a selected line on the macro table. -/
def lineEnv (sem : PPSem E) (env : E) : Line → E
  | .define n r => sem.define env n (sem.expand env r)
  | .undef n => sem.undef env n
  | _ => env

/-- Text kept for a selected line. -/
def lineText (sem : PPSem E) (env : E) : Line → List Str
  | .code s => [sem.expand env s]
  | _ => []

mutual
/-- C semantics of a block: the final macro table, and the ordinary lines selected, each with the
macro table in force there. -/
def Block.run (sem : PPSem E) (env : E) : Block → E × List (E × Line)
  | .nil => (env, [])
  | .leaf l rest =>
    let r := rest.run sem (lineEnv sem env l)
    (r.1, (env, l) :: r.2)
  | .cond c body chain rest =>
    let r1 := if sem.cond env c then body.run sem env else chain.run sem env
    let r2 := rest.run sem r1.1
    (r2.1, r1.2 ++ r2.2)
/-- C semantics of the rest of a conditional none of whose earlier conditions was true. -/
def Chain.run (sem : PPSem E) (env : E) : Chain → E × List (E × Line)
  | .endif => (env, [])
  | .els body => body.run sem env
  | .elif c body tail => if sem.cond env c then body.run sem env else tail.run sem env
end

/-- The text kept by a block. -/
def Block.text (sem : PPSem E) (env : E) (b : Block) : List Str :=
  (b.run sem env).2.flatMap (fun p => lineText sem p.1 p.2)

/-! ### Arbitrary line sequences (C18–C20) -/

/-- An open conditional: is the current branch true, was some branch true so far.  Enclosing
conditionals are not taken into account. -/
structure Frame where
  cur : Bool
  hit : Bool

/-- Macro table and open conditionals (innermost first). -/
structure Raw (E : Type) where
  env : E
  frames : List Frame

/-- Every open conditional is in a true branch. -/
def Raw.Active (r : Raw E) : Bool := r.frames.all Frame.cur

/-- One line: conditionals update the innermost frame, any other line acts only if all frames are
true. -/
def Raw.step (sem : PPSem E) (r : Raw E) : Line → Raw E
  | .dif c => ⟨r.env, ⟨sem.cond r.env c, sem.cond r.env c⟩ :: r.frames⟩
  | .delif c =>
    match r.frames with
    | [] => r
    | f :: fs => ⟨r.env, ⟨!f.hit && sem.cond r.env c, f.hit || sem.cond r.env c⟩ :: fs⟩
  | .delse =>
    match r.frames with
    | [] => r
    | f :: fs => ⟨r.env, ⟨!f.hit, true⟩ :: fs⟩
  | .dendif => ⟨r.env, r.frames.tail⟩
  | l => if r.Active then ⟨lineEnv sem r.env l, r.frames⟩ else r

/-- Text kept for a line. -/
def Raw.text (sem : PPSem E) (r : Raw E) (l : Line) : List Str :=
  if r.Active then lineText sem r.env l else []

/-- A sequence of lines. -/
def Raw.run (sem : PPSem E) (r : Raw E) : List Line → Raw E × List Str
  | [] => (r, [])
  | l :: ls =>
    let q := (r.step sem l).run sem ls
    (q.1, r.text sem l ++ q.2)

/-- Lines for which nothing at all is emitted: `#define`, `#undef`, `#pragma` in a skipped region, and
selected pragmas other than `pack(...)`. -/
def Raw.drops (sem : PPSem E) (r : Raw E) : Line → Bool
  | .define _ _ | .undef _ => !r.Active
  | .pragma t => !r.Active || (packMatch (sem.expand r.env t)).isNone
  | _ => false

/-- How many lines of a sequence are dropped. -/
def Raw.dropped (sem : PPSem E) (r : Raw E) : List Line → Nat
  | [] => 0
  | l :: ls => (if r.drops sem l then 1 else 0) + (r.step sem l).dropped sem ls

/-- `#if`s. -/
def isOpen : Line → Bool
  | .dif _ => true
  | _ => false

/-- `#endif`s. -/
def isEnd : Line → Bool
  | .dendif => true
  | _ => false

/-- Lines that need an open conditional. -/
def needsIf : Line → Bool
  | .dendif | .delif _ | .delse => true
  | _ => false

/-- Some `#endif`/`#elif`/`#else` has no open `#if` before it. -/
def Unmatched (ls : List Line) : Prop :=
  ∃ a c b, ls = a ++ c :: b ∧ needsIf c = true ∧ a.countP isOpen = a.countP isEnd

/-! ### Structure packing (C22) -/

/-- The forms of `#pragma pack`. -/
inductive PackOp where
  /-- `pack(n)` or `pack()` -/
  | set (v : Option Nat)
  /-- `pack(push)`, `pack(push, n)`, `pack(push, id)`, `pack(push, id, n)` -/
  | push (id : Option Str) (v : Option Nat)
  /-- `pack(pop)`, `pack(pop, n)`, `pack(pop, id)`, `pack(pop, id, n)` -/
  | pop (id : Option Str) (v : Option Nat)

/-- The comma separated options of a pack pragma. -/
def PackOp.opts : PackOp → List Str
  | .set none => [[]]
  | .set (some n) => [natDigits n]
  | .push id v => c%"push" :: (id.toList ++ (v.map natDigits).toList)
  | .pop id v => c%"pop" :: (id.toList ++ (v.map natDigits).toList)

/-- `txt` is a way to write the options of `op` (white space around commas is free). -/
def PackOp.Writes (op : PackOp) (txt : Str) : Prop := (splitOnC ',' txt).map strip = op.opts

/-- A label is not a number and not a keyword. -/
def GoodLabel (x : Str) : Prop := x ≠ c%"push" ∧ x ≠ c%"pop" ∧ ¬ (x ≠ [] ∧ ∀ c ∈ x, c.isDigit = true)

/-- The labels of the pragma are good. -/
def PackOp.Good : PackOp → Prop
  | .set _ => True
  | .push id _ | .pop id _ => ∀ x ∈ id, GoodLabel x

/-- Balanced sequences of pragmas: every unlabelled pop matches a push of the sequence. -/
inductive Balanced : List PackOp → Prop
  | nil : Balanced []
  | set (v : Option Nat) {l : List PackOp} (h : Balanced l) : Balanced (.set v :: l)
  | group (id : Option Str) (v w : Option Nat) {a b : List PackOp} (ha : Balanced a) (hb : Balanced b) :
      Balanced (.push id v :: (a ++ .pop none w :: b))

/-- The documented (MSVC) meaning of the pragmas: the packing in force, and what each open push saved
(innermost first). -/
structure Msvc where
  cur : Option Nat
  saved : List (Option Nat)

/-- Documented effect of unlabelled pragmas: a push saves the packing in force, a pop restores it. -/
def Msvc.step (m : Msvc) : PackOp → Msvc
  | .set v => ⟨v, m.saved⟩
  | .push _ v => ⟨v.or m.cur, m.cur :: m.saved⟩
  | .pop _ v =>
    match m.saved with
    | [] => m
    | c :: cs => ⟨v.or c, cs⟩

/-- Documented effect of a sequence. -/
def Msvc.run (m : Msvc) (l : List PackOp) : Msvc := l.foldl Msvc.step m

/-- The sequence never pops more than it pushed (given `n` open pushes). -/
def NoUnderflow : Nat → List PackOp → Prop
  | _, [] => True
  | n, .set _ :: l => NoUnderflow n l
  | n, .push _ _ :: l => NoUnderflow (n + 1) l
  | 0, .pop _ _ :: _ => False
  | n + 1, .pop _ _ :: l => NoUnderflow n l

/-- Only pushes with a value and bare pops. -/
def PackOp.Simple : PackOp → Prop
  | .push _ (some _) => True
  | .pop none none => True
  | _ => False

end Pyclib.Spec
