import Verif.Model.Ctypes
/-
The Python lists inside the definitions.  `process_declarator` makes a new list for every pair of brackets
(/repo/pyclibrary/c_parser.py:1404-1406), and the backend changes these lists in place
(backends/ctypes.py:224-231).  The model of the parser records the contents of the lists, the model of the
backend (Model/Ctypes.lean) their identities.  Here every list of a parsed header gets its identity: the
lists are numbered in the order of the tables `types`, `structs`, `unions`, then the types of variables and functions.
Each list is noted with a label, which does not exist in Python; theorems use it to tell whose list it is.

Simplification: typedefs, members, variables and functions are separate declarators, so they share no
list.  (A `Type` resolved by `Type.eval` shares the lists of the typedef; that is in `evalType`, which copies
the numbers.)
-/
namespace Pyclib

/-- All lists made so far: label and the one element (`[self.eval_expr(x)]`). -/
abbrev Lists (α : Type) := List (α × Option Int)

section
variable {α : Type} (sh : α)

mutual
/-- The modifiers of a type labelled `o`; types of parameters inside are labelled `sh`
(c_parser.py:1384-1436). -/
def numMods (o : α) : List CMod → Lists α → List CMod × Lists α
  | [], l => ([], l)
  | m :: ms, l =>
    let r := numMod o m l
    let rs := numMods o ms r.2
    (r.1 :: rs.1, rs.2)
/-- One modifier: brackets are a new list with one element (c_parser.py:1404-1406). -/
def numMod (o : α) : CMod → Lists α → CMod × Lists α
  | .sym s, l => (.sym s, l)
  | .arr [n], l => (.arr [some l.length], l ++ [(o, n)])
  | .arr d, l => (.arr d, l)
  | .fn ps, l => let r := numParams ps l; (.fn r.1, r.2)
/-- Parameters (c_parser.py:1408-1421). -/
def numParams : List Param → Lists α → List Param × Lists α
  | [], l => ([], l)
  | (n, ⟨s, ms, q⟩, d) :: ps, l =>
    let r := numMods sh ms l
    let rs := numParams ps r.2
    ((n, ⟨s, r.1, q⟩, d) :: rs.1, rs.2)
end

/-- A `Type` (c_parser.py:1438-1472). -/
def numType (o : α) (t : CType) (l : Lists α) : CType × Lists α :=
  let r := numMods sh o t.mods l
  (⟨t.spec, r.1, t.quals⟩, r.2)

/-- The table of types (c_parser.py:1622-1629). -/
def numTypes' : Dict Str DefVal → Lists α → Dict Str DefVal × Lists α
  | [], l => ([], l)
  | (n, .type t) :: d, l =>
    let r := numType sh sh t l
    let rs := numTypes' d r.2
    ((n, .type r.1) :: rs.1, rs.2)
  | x :: d, l => let rs := numTypes' d l; (x :: rs.1, rs.2)

/-- The members of a struct or union from number `j` on (c_parser.py:1573-1586). -/
def numMembers (lab : Nat → α) : Nat → List Member → Lists α → List Member × Lists α
  | _, [], l => ([], l)
  | j, m :: ms, l =>
    let r := numType sh (lab j) m.type l
    let rs := numMembers lab (j + 1) ms r.2
    ({ m with type := r.1 } :: rs.1, rs.2)

/-- The table of structs or unions (c_parser.py:1539-1598). -/
def numComps (lab : Str → Nat → α) : Dict Str DefVal → Lists α → Dict Str DefVal × Lists α
  | [], l => ([], l)
  | (n, .compound ms pack) :: d, l =>
    let r := numMembers sh (lab n) 0 ms l
    let rs := numComps lab d r.2
    ((n, .compound r.1 pack) :: rs.1, rs.2)
  | x :: d, l => let rs := numComps lab d l; (x :: rs.1, rs.2)

/-- Types of variables and functions, from number `k` on (c_parser.py:1512-1527, 1600-1620). -/
def numTops (lab : Nat → α) : Nat → List CType → Lists α → List CType × Lists α
  | _, [], l => ([], l)
  | k, t :: ts, l =>
    let r := numType sh (lab k) t l
    let rs := numTops lab (k + 1) ts r.2
    (r.1 :: rs.1, rs.2)

end

/-- The definitions with numbered lists, the numbered types of variables and functions, and all lists. -/
def libOf {α : Type} (sh : α) (mem : Bool → Str → Nat → α) (top : Nat → α) (s : Store DefVal) (ts : List CType) :
    KDefs DefVal × List CType × Lists α :=
  let a := numTypes' sh (s.defs .types) []
  let b := numComps sh (mem false) (s.defs .structs) a.2
  let c := numComps sh (mem true) (s.defs .unions) b.2
  let d := numTops sh top 0 ts c.2
  (fun k => match k with
    | .types => a.1
    | .structs => b.1
    | .unions => c.1
    | k => s.defs k, d.1, d.2)

/-- The element of list number `i`. -/
def dimAt {α : Type} (l : Lists α) (i : Int) : Option Int := ((l[i.toNat]?).map (·.2)).getD none

/-- The state of the backend before its first use: every list as the parser made it, no classes
(ctypes.py:141-158). -/
def ctStart {α : Type} (l : Lists α) : CtState := ⟨fun i => [dimAt l i], [], []⟩

end Pyclib
