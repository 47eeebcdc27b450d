import Verif.Model.Grammar
import Verif.Props.Comments
/-
Specification of the C syntax of headers, independent of the parser: how tokens are laid out in a text,
and which token sequences are expressions, types, declarators, member lists and declarations.

The relations carry the definition tables: `CSpec g s ts s' (q, n)` says that the tokens `ts` are a type
specifier with qualifiers `q` and name `n`, and that processing the struct, union and enum specifiers in
it, in the order in which they end, leads from the tables `s` to `s'`.
-/
namespace Pyclib.Spec

open Pyclib

/-- A token: its text and, for `struct` and `union`, the packing in force where it begins. -/
structure Tk where
  w : Str
  pk : Option Nat

/-- The end of a text and the packing in force as a function of the number of characters up to the end of
the text. -/
structure Doc where
  tail : Str
  pack : Nat → Option Nat

/-- Operators of two characters, and doubled quotes. -/
def pairOps : List Str :=
  [c%"||", c%"&&", c%"==", c%"!=", c%">=", c%"<=", c%"->", c%"::", c%"<<", c%">>", c%"++", c%"--", ['"', '"'], ['\'', '\'']]

/-- The characters `a` and `b` may stand side by side although they belong to different tokens. -/
def apart (a b : Char) : Bool := !(isIdC a && (isIdC b || b = '.')) && !(decide ([a, b] ∈ pairOps))

/-- `Lay doc p text ts`: the text consists of the tokens `ts`, with any amount of white space (at least
some where two tokens would run together) in front of each, and of `doc.tail`; `p` is the character before
it. -/
inductive Lay (doc : Doc) : Char → Str → List Tk → Prop
  | nil (p : Char) : Lay doc p doc.tail []
  | cons (p : Char) (ws : Str) (c : Char) (w : Str) (text : Str) (ts : List Tk) (pk : Option Nat) :
      ws.all isWhite = true → isWhite c = false → (ws ≠ [] ∨ apart p c = true) →
      (∀ u, c :: w = compWord u → pk = doc.pack (c :: w ++ text).length) →
      Lay doc ((c :: w).getLastD ' ') text ts → Lay doc p (ws ++ (c :: w) ++ text) (⟨c :: w, pk⟩ :: ts)

/-- A word of letters, digits and underscores. -/
def wordOk (w : Str) : Bool := !w.isEmpty && w.all isWordC

/-- Words with a meaning of their own that are not in `keywords`. -/
def reserved : List Str := c%"typedef" :: storageWords

/-- An identifier that may be used as a name; names that begin with two underscores are reserved. -/
def identOk (g : Gram) (w : Str) : Bool :=
  wordOk w && w.head?.any isIdentStart && decide (w ∉ keywords g.cfg) && decide (w ∉ g.mods) &&
    decide (w ∉ reserved) && !startsWith w c%"__"

/-- Extra types and modifiers are words and do not collide with the words of the language. -/
def gramOk (g : Gram) : Bool :=
  g.cfg.extraTypes.all (fun e => wordOk e &&
    decide (e ∉ [c%"struct", c%"enum", c%"union", c%"__stdcall", c%"__cdecl"] ++ qualWords ++ reserved)) &&
  g.mods.all (fun m => wordOk m && decide (m ∉ keywords g.cfg))

/-- An integer constant `w` without suffix `v`. -/
def intTok (w v : Str) : Prop :=
  ∃ suf, w = v ++ suf ∧ suf.all isUL = true ∧
    ((v ≠ [] ∧ v.all Char.isDigit = true) ∨
      ∃ x ds, v = '0' :: x :: ds ∧ (x = 'x' ∨ x = 'X') ∧ ds ≠ [] ∧ ds.all isHexC = true)

/-- A string or character literal. -/
def strTok (w : Str) : Prop := ∃ q its, (q = '"' ∨ q = '\'') ∧ (∀ i ∈ its, Item.Ok q i) ∧ w = litText q its

/-- A floating constant with at most one digit in front of the point. -/
def floTok (w : Str) : Prop :=
  ∃ m e, w = m ++ e ∧
    ((∃ d ds, m = d :: '.' :: ds ∧ d.isDigit = true ∧ ds.all Char.isDigit = true) ∨
      (∃ ds, m = '.' :: ds ∧ ds ≠ [] ∧ ds.all Char.isDigit = true) ∨ (∃ d, m = [d] ∧ d.isDigit = true ∧ e ≠ [])) ∧
    (e = [] ∨ ∃ x s ds, e = x :: s ++ ds ∧ (x = 'e' ∨ x = 'E') ∧ (s = [] ∨ s = ['+'] ∨ s = ['-']) ∧ ds ≠ [] ∧
      ds.all Char.isDigit = true)

/-- Binary operators of constant expressions. -/
def binOps : List Str :=
  [c%"||", c%"&&", c%"==", c%"!=", c%">=", c%"<=", c%"<<", c%">>", c%"+", c%"-", c%"/", c%"*", c%"|", c%"&",
   c%"^", c%"%", c%">", c%"<"]

/-- Sign operators. -/
def signOps : List Str := [c%"-", c%"+"]

mutual
/-- Operands without operators: tokens and the tokens recorded for them. -/
inductive CBase (g : Gram) : List Str → List Str → Prop
  | ident (n : Str) : identOk g n = true → startsWith n c%"sizeof" = false → startsWith n c%"new" = false →
      CBase g [n] [n]
  | num (w v : Str) : intTok w v → CBase g [w] [v]
  | float (w : Str) : floTok w → CBase g [w] [w]
  | str (w : Str) : strTok w → CBase g [w] [w]
  | paren (ts out : List Str) : CExpr g ts out → CBase g (c%"(" :: ts ++ [c%")"]) (c%"(" :: out ++ [c%")"])
/-- Operands with signs, perhaps behind a cast to a named type, which is not recorded.  A name alone in parentheses looks
like a cast. -/
inductive CAtom (g : Gram) : List Str → List Str → Prop
  | base (ts out : List Str) : CBase g ts out → (∀ n, ts = [c%"(", n, c%")"] → identOk g n = false) → CAtom g ts out
  | cast (n : Str) (ts out : List Str) : identOk g n = true → CBase g ts out → CAtom g (c%"(" :: n :: c%")" :: ts) out
  | sign (o : Str) (ts out : List Str) : o ∈ signOps → CAtom g ts out → CAtom g (o :: ts) (o :: out)
/-- Expressions: operands and binary operators. -/
inductive CExpr (g : Gram) : List Str → List Str → Prop
  | atom (ts out : List Str) : CAtom g ts out → CExpr g ts out
  | bin (ts out : List Str) (o : Str) (ts' out' : List Str) : CAtom g ts out → o ∈ binOps → CExpr g ts' out' →
      CExpr g (ts ++ o :: ts') (out ++ o :: out')
end

/-- The tokens `ts` are an expression that is recorded as the text `e`. -/
def ExprTks (g : Gram) (ts : List Tk) (e : Str) : Prop :=
  ∃ out, CExpr g (ts.map Tk.w) out ∧ e = joinC ' ' out

/-- Tokens between the brackets `o` and `c`, which may contain pairs of these brackets. -/
inductive Nest (o c : Char) : List Tk → Prop
  | nil : Nest o c []
  | tok (t : Tk) (ts : List Tk) : t.w.all (fun a => a ≠ o && a ≠ c && a ≠ '"' && a ≠ '\'') = true →
      Nest o c ts → Nest o c (t :: ts)
  | str (t : Tk) (ts : List Tk) : strTok t.w → Nest o c ts → Nest o c (t :: ts)
  | block (l r : Tk) (ts ts' : List Tk) : l.w = [o] → r.w = [c] → Nest o c ts → Nest o c ts' →
      Nest o c (l :: (ts ++ r :: ts'))

/-- Words that begin with two underscores and are not keywords: attributes. -/
def attrOk (g : Gram) (w : Str) : Bool :=
  wordOk w && startsWith w c%"__" && (w.drop 2).head?.any Char.isAlphanum && decide (w ∉ keywords g.cfg)

/-- Qualifiers and attributes, the latter with or without an argument in parentheses; two underscores are recorded for
the name of an attribute, `(...)` for its argument. -/
inductive Quals (g : Gram) : List Tk → List Str → Prop
  | nil : Quals g [] []
  | word (t : Tk) (ts : List Tk) (qs : List Str) : t.w ∈ qualWords → Quals g ts qs → Quals g (t :: ts) (t.w :: qs)
  | attr (t : Tk) (ts : List Tk) (qs : List Str) : attrOk g t.w = true → Quals g ts qs → Quals g (t :: ts) (c%"__" :: qs)
  | call (t l r : Tk) (b ts : List Tk) (qs : List Str) : attrOk g t.w = true → l.w = c%"(" → r.w = c%")" → Nest '(' ')' b →
      Quals g ts qs → Quals g (t :: l :: (b ++ r :: ts)) (c%"__" :: c%"(...)" :: qs)

/-- The tokens `ts` do not end with an extra modifier or an attribute in front of a parenthesis in `k`: the parenthesis would
be taken for its argument. -/
def Joins (g : Gram) (ts k : List Tk) : Prop :=
  ∀ a b, ts.getLast? = some a → (a.w ∈ g.mods ∨ attrOk g a.w = true) → k.head? = some b → b.w.head? ≠ some '('

/-- The tokens do not begin with an extra modifier. -/
def NoMod (g : Gram) (ts : List Tk) : Prop := ∀ t, ts.head? = some t → t.w ∉ g.mods

/-- Pointer levels: `*` with qualifiers. -/
inductive Ptrs (g : Gram) : List Tk → List (List Str) → Prop
  | nil : Ptrs g [] []
  | cons (star : Tk) (q ts : List Tk) (qs : List Str) (ps : List (List Str)) : star.w = c%"*" → Quals g q qs → Ptrs g ts ps →
      Ptrs g (star :: q ++ ts) (qs :: ps)

/-- Array levels: lengths in brackets; `-1` is recorded for an empty pair. -/
inductive Arrays (g : Gram) : List Tk → List Str → Prop
  | nil : Arrays g [] []
  | empty (l r : Tk) (ts : List Tk) (es : List Str) : l.w = c%"[" → r.w = c%"]" → Arrays g ts es →
      Arrays g (l :: r :: ts) (c%"-1" :: es)
  | len (l r : Tk) (e ts : List Tk) (x : Str) (es : List Str) : l.w = c%"[" → r.w = c%"]" → ExprTks g e x →
      Arrays g ts es → Arrays g (l :: e ++ r :: ts) (x :: es)

/-- An optional calling convention. -/
inductive Conv : List Tk → Option Str → Prop
  | none : Conv [] none
  | some (t : Tk) : t.w ∈ [c%"__cdecl", c%"__stdcall"] → Conv [t] (some t.w)

/-- An optional `&`. -/
inductive Amp : List Tk → Bool → Prop
  | no : Amp [] false
  | yes (t : Tk) : t.w = c%"&" → Amp [t] true

/-- An optional default value. -/
inductive Default (g : Gram) : List Tk → Option Str → Prop
  | none : Default g [] none
  | some (eq : Tk) (e : List Tk) (x : Str) : eq.w = c%"=" → ExprTks g e x → Default g (eq :: e) (some x)

/-- An abstract declarator without parameter lists. -/
inductive CAbs (g : Gram) : List Tk → Decl → Prop
  | mk (q p a r : List Tk) (qs : List Str) (ps : List (List Str)) (ref : Bool) (es : List Str) : Quals g q qs → NoMod g q →
      Ptrs g p ps → Amp a ref → Arrays g r es →
      CAbs g (q ++ (p ++ (a ++ r))) (.mk qs none ps ref .abs false .nil es)

/-- Expressions separated by commas. -/
inductive Exprs (g : Gram) : List Tk → List Str → Prop
  | one (e : List Tk) (x : Str) : ExprTks g e x → Exprs g e [x]
  | more (e : List Tk) (x : Str) (c : Tk) (ts : List Tk) (xs : List Str) : ExprTks g e x → c.w = c%"," →
      Exprs g ts xs → Exprs g (e ++ c :: ts) (x :: xs)

/-- An initializer. -/
inductive CInit (g : Gram) : List Tk → Init → Prop
  | none : CInit g [] .none
  | value (eq : Tk) (e : List Tk) (x : Str) : eq.w = c%"=" → ExprTks g e x → CInit g (eq :: e) (.value x)
  | values (eq l r : Tk) (ts : List Tk) (xs : List Str) : eq.w = c%"=" → l.w = c%"{" → r.w = c%"}" →
      Exprs g ts xs → CInit g (eq :: l :: (ts ++ [r])) (.values xs)

/-- An optional tag. -/
inductive Tag (g : Gram) : List Tk → Option Str → Prop
  | none : Tag g [] none
  | some (t : Tk) : identOk g t.w = true → Tag g [t] (some t.w)

/-- An enumerator with an optional value. -/
inductive Enumerator (g : Gram) : List Tk → Str × Option Str → Prop
  | mk (n : Tk) (v : List Tk) (val : Option Str) : identOk g n.w = true → Default g v val →
      Enumerator g (n :: v) (n.w, val)

/-- Enumerators separated by commas. -/
inductive Enumerators (g : Gram) : List Tk → List (Str × Option Str) → Prop
  | one (ts : List Tk) (m : Str × Option Str) : Enumerator g ts m → Enumerators g ts [m]
  | more (ts : List Tk) (m : Str × Option Str) (c : Tk) (ts' : List Tk) (ms : List (Str × Option Str)) :
      Enumerator g ts m → c.w = c%"," → Enumerators g ts' ms → Enumerators g (ts ++ c :: ts') (m :: ms)

/-- An optional comma. -/
inductive OptComma : List Tk → Prop
  | no : OptComma []
  | yes (c : Tk) : c.w = c%"," → OptComma [c]

/-- The definition tables. -/
abbrev St := Store DefVal

/-- A function body: the tokens between braces. -/
abbrev Body : List Tk → Prop := Nest '{' '}'

/-- Extra modifiers (`auto_init(extra_modifiers=…)`), with or without an argument in parentheses. -/
inductive Mods (g : Gram) : List Tk → Prop
  | nil : Mods g []
  | word (m : Tk) (ts : List Tk) : m.w ∈ g.mods → Mods g ts → Mods g (m :: ts)
  | call (m l r : Tk) (b ts : List Tk) : m.w ∈ g.mods → l.w = c%"(" → r.w = c%")" → Nest '(' ')' b → Mods g ts →
      Mods g (m :: l :: (b ++ r :: ts))

mutual
/-- Type specifiers. -/
inductive CSpec (g : Gram) : St → List Tk → St → List Str × Str → Prop
  | mk (s s' : St) (q ts m : List Tk) (qs : List Str) (n : Str) : Quals g q qs → CName g s ts s' n → Mods g m →
      CSpec g s (q ++ (ts ++ m)) s' (qs, n)
/-- Type specifiers without qualifiers. -/
inductive CName (g : Gram) : St → List Tk → St → Str → Prop
  | fund (s : St) (t : Tk) (ts : List Tk) : (∀ u ∈ t :: ts, u.w ∈ fundWords g.cfg) →
      CName g s (t :: ts) s (joinC ' ' ((t :: ts).map Tk.w))
  | ident (s : St) (t : Tk) : identOk g t.w = true → CName g s [t] s t.w
  | comp (s s' : St) (u : Bool) (kw n : Tk) (r : Str) : kw.w = compWord u → identOk g n.w = true →
      procStruct g.ev s u (some n.w) [] kw.pk = (s', some r) → CName g s [kw, n] s' r
  | compDef (s s1 s2 : St) (u : Bool) (kw l rb : Tk) (nm body : List Tk) (name : Option Str)
      (ms : List MemberDecl) (r : Str) : kw.w = compWord u → Tag g nm name → l.w = c%"{" → rb.w = c%"}" →
      CMembers g s body s1 ms → procStruct g.ev s1 u name ms kw.pk = (s2, some r) →
      CName g s (kw :: (nm ++ l :: (body ++ [rb]))) s2 r
  | enum (s s' : St) (kw n : Tk) (r : Str) : kw.w = c%"enum" → identOk g n.w = true →
      procEnum g.ev s (some n.w) [] = (s', some r) → CName g s [kw, n] s' r
  | enumDef (s s' : St) (kw l rb : Tk) (nm body oc : List Tk) (name : Option Str)
      (ms : List (Str × Option Str)) (r : Str) : kw.w = c%"enum" → Tag g nm name → l.w = c%"{" →
      rb.w = c%"}" → Enumerators g body ms → OptComma oc → procEnum g.ev s name ms = (s', some r) →
      CName g s (kw :: (nm ++ l :: (body ++ (oc ++ [rb])))) s' r
/-- Members of a struct or union. -/
inductive CMembers (g : Gram) : St → List Tk → St → List MemberDecl → Prop
  | one (s s' : St) (ts : List Tk) (m : MemberDecl) : CMemberDecl g s ts s' m → CMembers g s ts s' [m]
  | more (s s1 s2 : St) (ts ts' : List Tk) (m : MemberDecl) (ms : List MemberDecl) : CMemberDecl g s ts s1 m →
      CMembers g s1 ts' s2 ms → CMembers g s (ts ++ ts') s2 (m :: ms)
/-- One member declaration; nothing is recorded by the type of a bit field, which has no body. -/
inductive CMemberDecl (g : Gram) : St → List Tk → St → MemberDecl → Prop
  | var (s s1 s2 : St) (t d : List Tk) (semi : Tk) (tq : List Str) (tn : Str) (ds : List Decl) :
      CSpec g s t s1 (tq, tn) → CDecls g s1 d s2 ds → semi.w = c%";" → Joins g t d →
      CMemberDecl g s (t ++ (d ++ [semi])) s2 ⟨tq, tn, ds, none, none⟩
  | anon (s s1 : St) (t : List Tk) (semi : Tk) (tq : List Str) (tn : Str) : CSpec g s t s1 (tq, tn) →
      semi.w = c%";" → CMemberDecl g s (t ++ [semi]) s1 ⟨tq, tn, [], none, none⟩
  | bit (s : St) (t d : List Tk) (col n semi : Tk) (tq : List Str) (tn : Str) (ds : List Decl) (v : Str) :
      CSpec g s t s (tq, tn) → CDecls g s d s ds → col.w = c%":" → intTok n.w v → semi.w = c%";" → Joins g t d →
      (∀ u ∈ t ++ d, u.w ≠ c%"{") → CMemberDecl g s (t ++ (d ++ [col, n, semi])) s ⟨tq, tn, ds, none, some v⟩
  | pad (s : St) (t : List Tk) (col n semi : Tk) (tq : List Str) (tn : Str) (v : Str) :
      CSpec g s t s (tq, tn) → col.w = c%":" → intTok n.w v → semi.w = c%";" →
      (∀ u ∈ t, u.w ≠ c%"{") → CMemberDecl g s (t ++ [col, n, semi]) s ⟨tq, tn, [], none, some v⟩
/-- Declarators separated by commas. -/
inductive CDecls (g : Gram) : St → List Tk → St → List Decl → Prop
  | one (s s' : St) (ts : List Tk) (d : Decl) : CDeclr g s ts s' d → CDecls g s ts s' [d]
  | more (s s1 s2 : St) (ts ts' : List Tk) (c : Tk) (d : Decl) (ds : List Decl) : CDeclr g s ts s1 d →
      c.w = c%"," → CDecls g s1 ts' s2 ds → CDecls g s (ts ++ c :: ts') s2 (d :: ds)
/-- Declarators. -/
inductive CDeclr (g : Gram) : St → List Tk → St → Decl → Prop
  | mk (s s1 s2 : St) (q c p co ar a : List Tk) (qs : List Str) (conv : Option Str) (ps : List (List Str)) (ref : Bool)
      (core : Core) (h : Bool) (as : ArgList) (es : List Str) : Quals g q qs → NoMod g q → Conv c conv → Ptrs g p ps →
      Joins g (q ++ (c ++ p)) co → CCore g s co s1 ref core → CArgs g s1 ar s2 h as → Arrays g a es →
      CDeclr g s (q ++ (c ++ (p ++ (co ++ (ar ++ a))))) s2 (.mk qs conv ps ref core h as es)
/-- What a declarator is built around. -/
inductive CCore (g : Gram) : St → List Tk → St → Bool → Core → Prop
  | name (s : St) (a : List Tk) (ref : Bool) (n : Tk) : Amp a ref → identOk g n.w = true →
      CCore g s (a ++ [n]) s ref (.name n.w)
  | center (s s' : St) (l r : Tk) (ts : List Tk) (d : Decl) : l.w = c%"(" → r.w = c%")" →
      CDeclr g s ts s' d → CCore g s (l :: (ts ++ [r])) s' false (.center d)
/-- Parameter lists. -/
inductive CArgs (g : Gram) : St → List Tk → St → Bool → ArgList → Prop
  | none (s : St) : CArgs g s [] s false .nil
  | empty (s : St) (l r : Tk) : l.w = c%"(" → r.w = c%")" → CArgs g s [l, r] s true .nil
  | list (s s' : St) (l r : Tk) (ps : List Tk) (as : ArgList) : l.w = c%"(" → r.w = c%")" →
      CParams g s ps s' as → CArgs g s (l :: (ps ++ [r])) s' true as
/-- Parameters separated by commas. -/
inductive CParams (g : Gram) : St → List Tk → St → ArgList → Prop
  | one (s s' : St) (ts : List Tk) (tq : List Str) (tn : Str) (d : Decl) (val : Option Str) :
      CParam g s ts s' tq tn d val → CParams g s ts s' (.cons tq tn d val .nil)
  | more (s s1 s2 : St) (ts ts' : List Tk) (c : Tk) (tq : List Str) (tn : Str) (d : Decl) (val : Option Str)
      (as : ArgList) : CParam g s ts s1 tq tn d val → c.w = c%"," → CParams g s1 ts' s2 as →
      CParams g s (ts ++ c :: ts') s2 (.cons tq tn d val as)
/-- One parameter, with or without a name. -/
inductive CParam (g : Gram) : St → List Tk → St → List Str → Str → Decl → Option Str → Prop
  | named (s s1 s2 : St) (t d v : List Tk) (tq : List Str) (tn : Str) (d' : Decl) (val : Option Str) :
      CSpec g s t s1 (tq, tn) → CDeclr g s1 d s2 d' → Default g v val → Joins g t d →
      CParam g s (t ++ (d ++ v)) s2 tq tn d' val
  | abs (s s1 : St) (t d v : List Tk) (tq : List Str) (tn : Str) (d' : Decl) (val : Option Str) :
      CSpec g s t s1 (tq, tn) → CAbs g d d' → Default g v val →
      CParam g s (t ++ (d ++ v)) s1 tq tn d' val
end

/-- An optional storage class. -/
inductive Storage : List Tk → Prop
  | no : Storage []
  | yes (t : Tk) : t.w ∈ storageWords → Storage [t]

/-- One declaration at file level, and the tables before and after it.  The type and the declarator of a
function definition contain no struct, union or enum body. -/
inductive CTop (g : Gram) : St → List Tk → St → Prop
  | typedef (s s1 s2 s3 : St) (kw semi : Tk) (t d : List Tk) (tq : List Str) (tn : Str) (ds : List Decl) :
      kw.w = c%"typedef" → CSpec g s t s1 (tq, tn) → CDecls g s1 d s2 ds → semi.w = c%";" →
      procTypedef g.ev s2 tq tn ds = (s3, none) → Joins g t d → CTop g s (kw :: (t ++ (d ++ [semi]))) s3
  | var (s s1 s2 : St) (st t d i : List Tk) (semi : Tk) (tq : List Str) (tn : Str) (ds : List Decl)
      (ini : Init) : Storage st → CSpec g s t s1 (tq, tn) → CDecls g s1 d s2 ds → CInit g i ini →
      semi.w = c%";" → Joins g t d → CTop g s (st ++ (t ++ (d ++ (i ++ [semi])))) (procVariable g.ev s2 tq tn ds ini)
  | type (s s1 : St) (st t : List Tk) (semi : Tk) (tq : List Str) (tn : Str) : Storage st →
      CSpec g s t s1 (tq, tn) → semi.w = c%";" → CTop g s (st ++ (t ++ [semi])) s1
  | func (s s1 s2 : St) (st t d b : List Tk) (l r : Tk) (tq : List Str) (tn : Str) (d' : Decl) :
      Storage st → CSpec g s t s1 (tq, tn) → CDeclr g s1 d s2 d' → (∀ u ∈ t ++ d, u.w ≠ c%"{") →
      l.w = c%"{" → r.w = c%"}" → Body b → Joins g t d →
      CTop g s (st ++ (t ++ (d ++ (l :: (b ++ [r]))))) (procFunction g.ev s2 tq tn d')

/-- A token that may follow `extern "C"`: if it has quotation marks or backslashes, it is a string literal that does
not begin with a semicolon, quotation mark or blank (`C58_counterexample_linkage`). -/
def linkTok (w : Str) : Bool :=
  match w with
  | '"' :: c :: _ => linkChar c
  | w => w.all (fun c => decide (c ≠ '"') && decide (c ≠ '\\'))
where
  /-- The first character of the literal. -/
  linkChar (c : Char) : Bool := decide (c ∉ [';', '"', '\'']) && !isWhite c

/-- A header: declarations one after the other.  Semicolons and braces between them have no effect, and neither
has `extern "C"` (so that the declarations of a linkage specification `extern "C" { ... }` count as usual). -/
inductive CHeader (g : Gram) : St → List Tk → St → Prop
  | nil (s : St) : CHeader g s [] s
  | stray (s s' : St) (t : Tk) (ts : List Tk) : t.w ∈ [c%";", c%"{", c%"}"] → CHeader g s ts s' → CHeader g s (t :: ts) s'
  | linkage (s s' : St) (e l : Tk) (ts : List Tk) : e.w = c%"extern" → l.w = c%"\"C\"" →
      (∀ u ∈ ts, linkTok u.w = true) → CHeader g s ts s' → CHeader g s (e :: l :: ts) s'
  | cons (s s1 s2 : St) (ts ts' : List Tk) : CTop g s ts s1 → CHeader g s1 ts' s2 → CHeader g s (ts ++ ts') s2

/-- The tokens `ts'` may follow the tokens `ts`, which may have `extern "C"` among them. -/
def LinkOk (ts ts' : List Tk) : Prop := (∀ u ∈ ts, u.w ≠ c%"\"C\"") ∨ ∀ u ∈ ts', linkTok u.w = true

end Pyclib.Spec
