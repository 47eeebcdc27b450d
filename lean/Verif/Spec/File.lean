import Verif.Spec.Source
import Verif.Spec.Grammar
import Verif.Props.Comments
import Verif.Props.Preproc
import Verif.Model.File
/-
Specification of the meaning of a whole header file: phases of translation, conditional compilation,
`#pragma pack`, tokens.
-/
namespace Pyclib.Spec
open Pyclib

/-- Every comment stands next to white space, so that it makes no difference whether it is replaced by a
blank (as C does) or by nothing; `p` is the character before the pieces. -/
def Spaced : Char → List Seg → Prop
  | _, [] => True
  | p, s :: ss =>
    (match s with
      | .block _ | .line _ => isWhite p = true ∨ ∀ c, (ss.flatMap Seg.kept).head? = some c → isWhite c = true
      | _ => True) ∧ Spaced (s.kept.getLastD p) ss

/-- Continued lines may be joined after comments have been removed (C does it before): there is no
continuation after `/` or `*`, and no line comment ends with a backslash. -/
def Splices (text : Str) (segs : List Seg) : Prop :=
  (∀ a b c, c = '/' ∨ c = '*' → text ≠ a ++ c :: '\\' :: '\n' :: b) ∧ ∀ s, .line s ∈ segs → s.getLast? ≠ some '\\'

/-- The text consists of code, literals and comments; without the comments and with continued lines
joined it has these lines. -/
def IsSource (text : Str) (lines : List Str) : Prop :=
  ∃ (segs : List Seg) (ps : List Str), SegsOk segs ∧ segs.flatMap Seg.text = text ∧ Spaced '\n' segs ∧
    Splices text segs ∧ (∀ p ∈ ps, NoCont p) ∧ glue ps = segs.flatMap Seg.kept ∧ joinC '\n' lines = ps.flatten ∧
    lines ≠ [] ∧ ∀ l ∈ lines, '\n' ∉ l

/-- What becomes of one line: it is a conditional directive, it is skipped, or it is selected, with the
macro table in force. -/
inductive Entry (E : Type) where
  | cond
  | skip (l : Line)
  | sel (env : E) (l : Line)

mutual
/-- The lines of a skipped text. -/
def SBlock.skips (E : Type) : SBlock → List (Entry E)
  | .nil => []
  | .leaf _ l rest => .skip l :: rest.skips E
  | .cond _ _ body chain rest => .cond :: (body.skips E ++ (chain.skips E ++ rest.skips E))
/-- The lines of a skipped chain. -/
def SChain.skips (E : Type) : SChain → List (Entry E)
  | .endif _ => [.cond]
  | .els _ body _ => .cond :: (body.skips E ++ [.cond])
  | .elif _ _ body tail => .cond :: (body.skips E ++ tail.skips E)
end

mutual
/-- What becomes of the lines of a text, one entry per line. -/
def SBlock.trace {E : Type} (sem : CSem E) (env : E) : SBlock → List (Entry E)
  | .nil => []
  | .leaf _ l rest => .sel env l :: rest.trace sem (lineEnv sem.toPPSem env l)
  | .cond _ c body chain rest =>
    .cond :: (if c.holds sem env then body.trace sem env ++ (chain.skips E ++ rest.trace sem (body.run sem env).1)
      else body.skips E ++ (chain.trace sem env ++ rest.trace sem (chain.run sem env).1))
/-- The same for the rest of a conditional none of whose earlier conditions was true. -/
def SChain.trace {E : Type} (sem : CSem E) (env : E) : SChain → List (Entry E)
  | .endif _ => [.cond]
  | .els _ body _ => .cond :: (body.trace sem env ++ [.cond])
  | .elif _ e body tail =>
    .cond :: (if sem.cond env e then body.trace sem env ++ tail.skips E else body.skips E ++ tail.trace sem env)
end

/-- The text consists of words with any amount of white space (at least some where two words would run
together) around them; `p` is the character before it. -/
inductive Words : Char → Str → List Str → Prop
  | nil (p : Char) (t : Str) : t.all isWhite = true → Words p t []
  | cons (p : Char) (t : Str) (c : Char) (w : Str) (text : Str) (ws : List Str) :
      t.all isWhite = true → isWhite c = false → (t ≠ [] ∨ apart p c = true) →
      Words ((c :: w).getLastD ' ') text ws → Words p (t ++ ((c :: w) ++ text)) ((c :: w) :: ws)

/-- The text of a pragma after the word `pragma` is `pack(…)`. -/
def IsPack (r : Str) (op : PackOp) : Prop :=
  ∃ a b txt after, a ≠ [] ∧ Blank a ∧ Blank b ∧ r = a ++ (c%"pack" ++ (b ++ '(' :: (txt ++ ')' :: after))) ∧
    ')' ∉ txt ∧ op.Good ∧ op.Writes txt

/-- The text of a pragma does not begin with the word `pack`. -/
def NotPack (r : Str) : Prop := ∀ a b, r = a ++ (c%"pack" ++ b) → ∃ c ∈ a, isSpaceC c = false

/-- Lines that are neither text nor pragmas. -/
def Line.isQuiet : Line → Bool
  | .code _ | .pragma _ => false
  | _ => true

/-- The words of a file without `#pragma pack`: those of the selected lines. -/
inductive FileWords {E : Type} (sem : PPSem E) : List (Entry E) → List Str → Prop
  | nil : FileWords sem [] []
  | cond (es : List (Entry E)) (ts : List Str) : FileWords sem es ts → FileWords sem (.cond :: es) ts
  | skip (l : Line) (es : List (Entry E)) (ts : List Str) : FileWords sem es ts → FileWords sem (.skip l :: es) ts
  | code (env : E) (t : Str) (ws : List Str) (es : List (Entry E)) (ts : List Str) :
      Words '\n' (sem.expand env t) ws → FileWords sem es ts →
      FileWords sem (.sel env (.code t) :: es) (ws ++ ts)
  | pragma (env : E) (r : Str) (es : List (Entry E)) (ts : List Str) : NotPack (sem.expand env r) →
      FileWords sem es ts → FileWords sem (.sel env (.pragma r) :: es) ts
  | quiet (env : E) (l : Line) (es : List (Entry E)) (ts : List Str) : Line.isQuiet l = true →
      FileWords sem es ts → FileWords sem (.sel env l :: es) ts

/-- The next line is a pragma. -/
def NextPragma {E : Type} : List (Entry E) → Bool
  | .sel _ (.pragma _) :: _ => true
  | _ => false

/-- The pragmas whose documented meaning pyclibrary implements: `pack(n)`, `pack()`, `pack(push)` while no
packing is in force, `pack(push, n)`, both also with a label, `pack(pop)` and `pack(pop, n)` where something
was pushed.  A push must not come after a `pack(n)` on the same level (the flag says that there was none). -/
inductive PackStep : Msvc × Bool → PackOp → Msvc × Bool → Prop
  | set (m : Msvc) (b : Bool) (v : Option Nat) : PackStep (m, b) (.set v) (m.step (.set v), false)
  | push (m : Msvc) (id : Option Str) (v : Option Nat) : (v = none → m.cur = none) →
      PackStep (m, true) (.push id v) (m.step (.push id v), true)
  | pop (m : Msvc) (b : Bool) : m.saved ≠ [] → PackStep (m, b) (.pop none none) (m.step (.pop none none), true)
  | popTo (m : Msvc) (b : Bool) (n : Nat) : m.saved ≠ [] →
      PackStep (m, b) (.pop none (some n)) (m.step (.pop none (some n)), false)

/-- The tokens of a file with pragmas: `struct` and `union` carry the packing in force by the documented
meaning of `#pragma pack`.  Skipped lines are neither `#define`, `#undef` nor pragmas, there are no other
pragmas, and the line before a pragma does not contain `struct` or `union`. -/
inductive FileToks {E : Type} (sem : PPSem E) : Msvc × Bool → List (Entry E) → List Tk → Prop
  | nil (m : Msvc × Bool) : FileToks sem m [] []
  | cond (m : Msvc × Bool) (es : List (Entry E)) (ts : List Tk) : FileToks sem m es ts →
      FileToks sem m (.cond :: es) ts
  | skip (m : Msvc × Bool) (l : Line) (es : List (Entry E)) (ts : List Tk) :
      (∀ n r, l ≠ .define n r) → (∀ n, l ≠ .undef n) → (∀ r, l ≠ .pragma r) →
      FileToks sem m es ts → FileToks sem m (.skip l :: es) ts
  | code (m : Msvc × Bool) (env : E) (t : Str) (ws : List Str) (es : List (Entry E)) (ts : List Tk) :
      Words '\n' (sem.expand env t) ws → '\n' ∉ sem.expand env t →
      (NextPragma es = true → c%"struct" ∉ ws ∧ c%"union" ∉ ws) → FileToks sem m es ts →
      FileToks sem m (.sel env (.code t) :: es) (ws.map (⟨·, m.1.cur⟩) ++ ts)
  | pack (m m' : Msvc × Bool) (env : E) (r : Str) (op : PackOp) (es : List (Entry E)) (ts : List Tk) :
      IsPack (sem.expand env r) op → PackStep m op m' →
      FileToks sem m' es ts → FileToks sem m (.sel env (.pragma r) :: es) ts
  | quiet (m : Msvc × Bool) (env : E) (l : Line) (es : List (Entry E)) (ts : List Tk) : Line.isQuiet l = true →
      FileToks sem m es ts → FileToks sem m (.sel env l :: es) ts

/-- The meaning of macros in a file: that of the parser, and the names that are defined. -/
def fileSem (w : Setup) : CSem (Store DefVal) :=
  { w.sem with defd := fun s x => (dget (menvOf s).macros x).isSome || (dget (menvOf s).fnmacros x).isSome }

/-- The tokens of a file, without and with pack pragmas. -/
def FileTokens {E : Type} (sem : PPSem E) (es : List (Entry E)) (ts : List Tk) : Prop :=
  (∃ ws, FileWords sem es ws ∧ ts = ws.map (⟨·, none⟩)) ∨ FileToks sem (⟨none, []⟩, true) es ts

/-- What C says about a file: it leads from the tables `s` to the tables `s'`.  Comments are removed,
continued lines joined, directives obeyed, macros expanded, and the tokens of the selected lines are
declarations. -/
def FileMeans (w : Setup) (s : St) (path text : Str) (s' : St) : Prop :=
  ∃ (b : SBlock) (ts : List Tk), IsSource text b.texts ∧ b.Ok ∧
    FileTokens w.sem (b.trace (fileSem w) (setFile s (some path))) ts ∧
    CHeader ⟨w.cfg, w.mods, w.ev, fun _ => none, w.junk⟩ (b.run (fileSem w) (setFile s (some path))).1 ts s'

/-- What C says about files that are read one after the other. -/
inductive FilesMean (w : Setup) : St → List (Str × Str) → St → Prop
  | nil (s : St) : FilesMean w s [] s
  | cons (s s1 s2 : St) (path text : Str) (fs : List (Str × Str)) : FileMeans w s path text s1 →
      FilesMean w s1 fs s2 → FilesMean w s ((path, text) :: fs) s2

/-- The block consists of blank lines. -/
def SBlock.Blanks : SBlock → Prop
  | .nil => True
  | .leaf t l rest => l = .code t ∧ Blank t ∧ rest.Blanks
  | .cond .. => False

/-- Lines before a block. -/
def SBlock.app : SBlock → SBlock → SBlock
  | .nil, b => b
  | .leaf t l rest, b => .leaf t l (rest.app b)
  | .cond t c body chain rest, b => .cond t c body chain (rest.app b)

/-- A file with an include guard: blank lines (which may have held comments), `#ifndef G`, `#define G`,
anything without `#undef G`, `#endif`, blank lines. -/
def Guarded (g : Str) (b : SBlock) : Prop :=
  (∃ (pre : SBlock) (t1 t2 r : Str) (body : SBlock) (t3 : Str) (post : SBlock),
    b = pre.app (.cond t1 (.ifndef g) (.leaf t2 (.define g r) body) (.endif t3) post) ∧ pre.Blanks ∧ post.Blanks) ∧
  ∀ t ∈ b.texts, ¬ IsLeaf t (.undef g)

end Pyclib.Spec
