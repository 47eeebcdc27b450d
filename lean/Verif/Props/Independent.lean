import Verif.Proof.Independent
import Verif.Proof.Adds
import Verif.Proof.EvalLocal
import Verif.Props.Grammar
/-! C79: headers that have nothing to do with each other. -/
namespace Pyclib
open Spec

/-- C79 (partial: the C subset of C58): what the declarations of a header do depends on the values of the names in their
constant expressions and on the tags that they mention only.  If the tables `s` and `t` agree there, the header has the
same effect on both: each definition is left alone in both cases or is the same afterwards; and names that do not occur in
the header keep their definitions. -/
theorem C79_effect_partial {g : Gram} (hg : gramOk g = true) {tail text : Str} {s s' t : St} {ts : List Tk} {S : Scope}
    (hh : CHeader g s ts s') (hl : Lay ⟨tail, g.pack⟩ ' ' text ts) (ht : tail.all isWhite = true)
    (hc : Covers g S ts) (ha : SameOn S s t) :
    parseDefs g s text = (s', none) ∧ ∃ t', parseDefs g t text = (t', none) ∧ SameEffect s s' t t' ∧ Keeps S s s' ∧
      Keeps S t t' := by
  obtain ⟨t', h1, _, h3, h4⟩ := header_out hh hc ha
  obtain ⟨_, _, _, h5, _⟩ := header_out h1 hc (t := t) ⟨fun _ _ => rfl, fun _ _ _ _ => rfl⟩
  exact ⟨parseDefs_read hg hh hl ht, t', parseDefs_read hg h1 hl ht, h4, h3, h5⟩

/-- Whatever the text, nothing that was defined is undefined afterwards. -/
theorem header_ext {g : Gram} {s s' : St} {text : Str} (h : parseDefs g s text = (s', none)) : Ext s s' := by
  have := adds_parseDefs g s text
  rw [h] at this
  simp only at this
  clear h
  intro k n hn
  induction this with
  | refl => exact hn
  | add s' k' n' v _ _ _ ih => exact ext_addDef _ _ _ _ _ _ ih

/-- C79 (partial: the C subset of C58): the order of two headers is irrelevant to the definitions, if neither defines a
value or tag that the other one uses, neither redefines anything, and they do not both define the same name. -/
theorem C79_order_partial {g g' : Gram} (hg : gramOk g = true) (hg' : gramOk g' = true) {tail text tail' text' : Str}
    {s sa sb : St} {ta tb : List Tk} {A B : Scope}
    (hha : CHeader g s ta sa) (hla : Lay ⟨tail, g.pack⟩ ' ' text ta) (hta : tail.all isWhite = true)
    (hhb : CHeader g' s tb sb) (hlb : Lay ⟨tail', g'.pack⟩ ' ' text' tb) (htb : tail'.all isWhite = true)
    (hca : Covers g A ta) (hcb : Covers g' B tb) (hab : SameOn B s sa) (hba : SameOn A s sb)
    (hnew : ∀ k n, dhas (s.defs k) n = true → dget (sa.defs k) n = dget (s.defs k) n ∧ dget (sb.defs k) n = dget (s.defs k) n)
    (hdis : ∀ k n, dhas (s.defs k) n = false → dhas (sa.defs k) n = false ∨ dhas (sb.defs k) n = false) :
    ∃ u v, parseDefs g s text = (sa, none) ∧ parseDefs g' sa text' = (u, none) ∧
      parseDefs g' s text' = (sb, none) ∧ parseDefs g sb text = (v, none) ∧
      ∀ k n, dget (u.defs k) n = dget (v.defs k) n ∧
        (dget (sa.defs k) n ≠ dget (s.defs k) n → dget (u.defs k) n = dget (sa.defs k) n) ∧
        (dget (sb.defs k) n ≠ dget (s.defs k) n → dget (u.defs k) n = dget (sb.defs k) n) := by
  obtain ⟨pa, v, pv, ea, _, _⟩ := C79_effect_partial hg hha hla hta hca hba
  obtain ⟨pb, u, pu, eb, _, _⟩ := C79_effect_partial hg' hhb hlb htb hcb hab
  have xu := header_ext pu
  have xv := header_ext pv
  have none_of : ∀ {d : Dict Str DefVal} {n : Str}, dhas d n = false → dget d n = none := by
    intro d n h
    unfold dhas at h
    exact Option.isSome_eq_false_iff.1 h |> Option.isNone_iff_eq_none.1
  have mono : ∀ {a b : St} {k : Kind} {n : Str}, Ext a b → dget (b.defs k) n = none → dget (a.defs k) n = none := by
    intro a b k n hx hb
    refine none_of ?_
    cases hh : dhas (a.defs k) n with
    | false => rfl
    | true =>
      have := hx k n hh
      unfold dhas at this
      rw [hb] at this
      cases this
  refine ⟨u, v, pa, pu, pb, pv, fun k n => ?_⟩
  have key : dget (u.defs k) n = dget (v.defs k) n := by
    rcases eb k n with ⟨b1, b2⟩ | b1
    · rcases ea k n with ⟨a1, a2⟩ | a1
      · rw [b2, a2, a1, b1]
      · rw [b2, a1]
    · rcases ea k n with ⟨a1, a2⟩ | a1
      · rw [← b1, a2]
      · rw [← b1, ← a1]
        cases hs : dhas (s.defs k) n with
        | true => rw [(hnew k n hs).1, (hnew k n hs).2]
        | false =>
          rcases hdis k n hs with h | h
          · have h' := none_of h
            rw [h', mono xv (by rw [← a1, h'])]
          · have h' := none_of h
            rw [h', mono xu (by rw [← b1, h'])]
  refine ⟨key, fun ha => ?_, fun hb => ?_⟩
  · rcases ea k n with ⟨a1, _⟩ | a1
    · exact absurd a1 ha
    · rw [key, a1]
  · rcases eb k n with ⟨b1, _⟩ | b1
    · exact absurd b1 hb
    · exact b1.symm

/-! ### Which names the expressions use -/

/-- C79: the evaluator of the parser looks up the words only that it gives to Python, if Python's own evaluation of what is
not modelled does so. -/
theorem C79_values {g gc : Gram} {py : Dict Str DefVal → Str → PVal} (he : g.ev = evalExpr gc py) (hp : PyWords py)
    {S : Scope} {e : Str} (h : ∀ w, WordIn w (evalText gc e) → S.vals w) : EvSame g S e := by
  intro tbl tbl' ht
  rw [he]
  exact evalExpr_same hp fun w hw => ht w (h w hw)

theorem intTok_head {w v : Str} (h : intTok w v) : v.head?.any Char.isDigit = true := by
  obtain ⟨suf, _, _, ⟨h1, h2⟩ | ⟨x, ds, rfl, _⟩⟩ := h
  · cases v with
    | nil => exact absurd rfl h1
    | cons c v => simp only [List.all_cons, Bool.and_eq_true] at h2; simpa using h2.1
  · rfl

mutual
theorem base_from {g : Gram} {ts out : List Str} : CBase g ts out → ∀ w ∈ out, w ∈ ts ∨ w.head?.any Char.isDigit = true
  | .ident n _ _ _ => fun w h => .inl h
  | .num u v hu => fun w h => by
    simp only [List.mem_singleton] at h; subst h; exact .inr (intTok_head hu)
  | .float _ _ => fun w h => .inl h
  | .str _ _ => fun w h => .inl h
  | .paren ts out he => fun w h => by
    have := expr_from he
    grind
theorem atom_from {g : Gram} {ts out : List Str} : CAtom g ts out → ∀ w ∈ out, w ∈ ts ∨ w.head?.any Char.isDigit = true
  | .base _ _ hb _ => base_from hb
  | .cast n ts out _ hb => fun w h => by
    have := base_from hb
    grind
  | .sign o ts out _ ha => fun w h => by
    have := atom_from ha
    grind
theorem expr_from {g : Gram} {ts out : List Str} : CExpr g ts out → ∀ w ∈ out, w ∈ ts ∨ w.head?.any Char.isDigit = true
  | .atom _ _ ha => atom_from ha
  | .bin ts out o ts' out' ha _ he => fun w h => by
    have := atom_from ha
    have := expr_from he
    grind
end

/-! ### A check -/

/-- The lists `tags` and `names` have what a scope must have for these tokens, none of which begins a struct, union or enum
without tag. -/
def coversB (g : Gram) (tags names : List Str) (ts : List Tk) : Bool :=
  ts.all (fun t => !identOk g t.w || decide (t.w ∈ names)) &&
  (ts.zip ts.tail).all (fun p => decide (p.1.w ∉ tagWords) || (decide (p.2.w ≠ c%"{") &&
    (!identOk g p.2.w || (decide (p.2.w ∈ tags) && decide (p.1.w ++ ' ' :: p.2.w ∈ names)))))

theorem pair_mem {α : Type} (x y : α) (c : List α) : ∀ a : List α,
    (x, y) ∈ (a ++ x :: y :: c).zip (a ++ x :: y :: c).tail
  | [] => by simp
  | [z] => by simp
  | z :: z' :: a => by
    have := pair_mem x y c (z' :: a)
    simp only [List.cons_append, List.tail_cons, List.zip_cons_cons, List.mem_cons] at this ⊢
    exact .inr this

/-- What `coversB` checks is enough; the expressions are to be examined separately. -/
theorem covers_of_check {g : Gram} {vals : Str → Prop} {tags names : List Str} {ts : List Tk}
    (h : coversB g tags names ts = true)
    (he : ∀ out : List Str, (∀ w ∈ out, w ∈ ts.map Tk.w ∨ w.head?.any Char.isDigit = true) →
      EvSame g ⟨vals, (· ∈ tags), (· ∈ names)⟩ (joinC ' ' out))
    (hm : EvSame g ⟨vals, (· ∈ tags), (· ∈ names)⟩ c%"-1") : Covers g ⟨vals, (· ∈ tags), (· ∈ names)⟩ ts := by
  simp only [coversB, Bool.and_eq_true, List.all_eq_true, Bool.or_eq_true, Bool.not_eq_true', decide_eq_true_eq] at h
  obtain ⟨h1, h2⟩ := h
  refine ⟨fun t ht hi => ?_, fun a kw n c e hk hi => ?_, fun a kw l c e hk hl => ?_, fun a b c e eq hx => ?_, hm⟩
  · rcases h1 t ht with h | h
    · rw [hi] at h; cases h
    · exact h
  · have hp := h2 (kw, n) (by rw [e]; exact pair_mem kw n c a)
    rcases hp with h | ⟨_, h | h⟩
    · exact absurd hk h
    · rw [hi] at h; cases h
    · exact h
  · have hp := h2 (kw, l) (by rw [e]; exact pair_mem kw l c a)
    rcases hp with h | ⟨h, _⟩
    · exact absurd hk h
    · exact absurd hl h
  · obtain ⟨out, ho, rfl⟩ := hx
    refine he out fun w hw => ?_
    rcases expr_from ho w hw with h | h
    · left
      rw [eq]
      simp only [List.map_append, List.mem_append]
      exact .inr (.inl h)
    · exact .inr h

/-! ### Examples -/

/-- `u32 z; double scale = -2.5e-1;`, a header that uses a type that the other header defines. -/
def exOther : List (Str × Str) :=
  [([], c%"u32"), ([' '], c%"z"), ([], c%";"), ([' '], c%"double"), ([' '], c%"scale"), ([' '], c%"="), ([' '], c%"-"),
   ([], c%"2.5e-1"), ([], c%";")]

theorem ex_uvar (s : St) : CTop exGram s ([c%"u32", c%"z", c%";"].map tkw)
    (procVariable exGram.ev s [] c%"u32" [.mk [] none [] false (.name c%"z") false .nil []] .none) :=
  .var _ _ _ [] [tkw c%"u32"] [tkw c%"z"] [] (tkw c%";") [] c%"u32" _ .none .no
    (spec_plain (.ident _ (tkw c%"u32") (by decide)))
    (.one _ _ _ _ (declr_simple .nil (by decide) .nil)) .none rfl (joins_last (by decide))

theorem joinC_noBlank {w : Str} (hw : ' ' ∉ w) (hn : w ≠ []) : ∀ out : List Str, joinC ' ' out = w → w ∈ out
  | [], h => absurd h.symm hn
  | [a], h => by simp only [joinC] at h; simp [h]
  | a :: b :: l, h => by
    simp only [joinC] at h
    rw [← h] at hw
    simp at hw

/-- The value of an expression in the examples does not depend on names that are no tokens. -/
theorem ex_evSame {tags names : Str → Prop} {l : List Str} {ts : List Tk}
    (hl : l.all (fun n => decide (n ≠ [] ∧ ' ' ∉ n ∧ n ∉ ts.map Tk.w) && !n.head?.any Char.isDigit) = true) (out : List Str)
    (h : ∀ w ∈ out, w ∈ ts.map Tk.w ∨ w.head?.any Char.isDigit = true) :
    EvSame exGram ⟨(· ∉ l), tags, names⟩ (joinC ' ' out) := by
  intro tbl tbl' hs
  have : dget tbl (joinC ' ' out) = dget tbl' (joinC ' ' out) := by
    refine hs _ fun e => ?_
    have hn := List.all_eq_true.1 hl _ e
    simp only [Bool.and_eq_true, decide_eq_true_eq, Bool.not_eq_true'] at hn
    obtain ⟨⟨h1, h2, h3⟩, h4⟩ := hn
    rcases h _ (joinC_noBlank h2 h1 out rfl) with h | h
    · exact h3 h
    · rw [h4] at h; cases h
  show exEvalExpr tbl _ = exEvalExpr tbl' _
  unfold exEvalExpr
  rw [this]

theorem ex_minus {tags names : Str → Prop} {l : List Str} (hn : c%"-1" ∉ l) :
    EvSame exGram ⟨(· ∉ l), tags, names⟩ c%"-1" := by
  intro tbl tbl' hs
  show exEvalExpr tbl _ = exEvalExpr tbl' _
  unfold exEvalExpr
  rw [hs _ hn]

/-- Names of the first header and of the second. -/
def exA : Scope := ⟨(· ∉ [c%"z", c%"scale"]), (· ∈ [c%"pt"]),
  (· ∈ [c%"u32", c%"pt", c%"struct pt", c%"x", c%"y", c%"f", c%"n"])⟩
def exB : Scope := ⟨(· ∉ []), (· ∈ []), (· ∈ [c%"u32", c%"z", c%"scale"])⟩

/-- C79 for headers without previous definitions, with conditions on lists of names: neither header defines a value or a
tag that the other one uses, and no name is defined by both. -/
theorem C79_fresh_partial {g : Gram} (hg : gramOk g = true) {tail text tail' text' : Str} {sa sb : St} {ta tb : List Tk}
    {A B : Scope} (hha : CHeader g Store.empty ta sa) (hla : Lay ⟨tail, g.pack⟩ ' ' text ta) (hta : tail.all isWhite = true)
    (hhb : CHeader g Store.empty tb sb) (hlb : Lay ⟨tail', g.pack⟩ ' ' text' tb) (htb : tail'.all isWhite = true)
    (hca : Covers g A ta) (hcb : Covers g B tb)
    (va : ∀ n ∈ dkeys (sa.defs .values), ¬ B.vals n) (vb : ∀ n ∈ dkeys (sb.defs .values), ¬ A.vals n)
    (ga : ∀ k, k = .structs ∨ k = .unions ∨ k = .enums → ∀ n ∈ dkeys (sa.defs k), ¬ B.tags n)
    (gb : ∀ k, k = .structs ∨ k = .unions ∨ k = .enums → ∀ n ∈ dkeys (sb.defs k), ¬ A.tags n)
    (hdis : ∀ k, ∀ n ∈ dkeys (sa.defs k), n ∉ dkeys (sb.defs k)) :
    SameOn B Store.empty sa ∧ SameOn A Store.empty sb ∧
    ∃ u v, parseDefs g sa text' = (u, none) ∧ parseDefs g sb text = (v, none) ∧
      ∀ k n, dget (u.defs k) n = dget (v.defs k) n ∧
        (n ∈ dkeys (sa.defs k) → dget (u.defs k) n = dget (sa.defs k) n) ∧
        (n ∈ dkeys (sb.defs k) → dget (u.defs k) n = dget (sb.defs k) n) := by
  have he : ∀ k n, dget ((Store.empty : St).defs k) n = none := fun _ _ => rfl
  have hab : SameOn B Store.empty sa :=
    ⟨fun n hn => by rw [he]; exact (dget_none_iff.2 fun h => va n h hn).symm,
      fun k hk n hn => by rw [he]; exact (dget_none_iff.2 fun h => ga k hk n h hn).symm⟩
  have hba : SameOn A Store.empty sb :=
    ⟨fun n hn => by rw [he]; exact (dget_none_iff.2 fun h => vb n h hn).symm,
      fun k hk n hn => by rw [he]; exact (dget_none_iff.2 fun h => gb k hk n h hn).symm⟩
  obtain ⟨u, v, _, h2, _, h4, h5⟩ := C79_order_partial hg hg hha hla hta hhb hlb htb hca hcb hab hba
    (fun k n h => by simp [dhas, he] at h)
    (fun k n _ => by
      by_cases h : n ∈ dkeys (sa.defs k)
      · right; simp [dhas, dget_none_iff.2 (hdis k n h)]
      · left; simp [dhas, dget_none_iff.2 h])
  refine ⟨hab, hba, u, v, h2, h4, fun k n => ⟨(h5 k n).1, fun h => (h5 k n).2.1 ?_, fun h => (h5 k n).2.2 ?_⟩⟩
  · rw [he]; exact fun e => dget_none_iff.1 e h
  · rw [he]; exact fun e => dget_none_iff.1 e h

/-- The two headers of the example meet the hypotheses of C79; either order records the same, although one uses a type that
the other one defines. -/
theorem C79_example : ∃ sa sb u v,
    CHeader exGram Store.empty (tksOf ⟨['\n'], exGram.pack⟩ exHeader) sa ∧
    CHeader exGram Store.empty (tksOf ⟨[], exGram.pack⟩ exOther) sb ∧
    Covers exGram exA (tksOf ⟨['\n'], exGram.pack⟩ exHeader) ∧ Covers exGram exB (tksOf ⟨[], exGram.pack⟩ exOther) ∧
    SameOn exB Store.empty sa ∧ SameOn exA Store.empty sb ∧
    parseDefs exGram sa (textOf [] exOther) = (u, none) ∧ parseDefs exGram sb (textOf ['\n'] exHeader) = (v, none) ∧
    (∀ k n, dget (u.defs k) n = dget (v.defs k) n) ∧
    dhas (u.defs .types) c%"u32" = true ∧ dhas (u.defs .structs) c%"pt" = true ∧ dhas (u.defs .functions) c%"f" = true ∧
    dhas (u.defs .variables) c%"scale" = true := by
  have cA : Covers exGram exA (tksOf ⟨['\n'], exGram.pack⟩ exHeader) :=
    covers_of_check (by decide +kernel) (ex_evSame (by decide +kernel)) (ex_minus (by decide))
  have cB : Covers exGram exB (tksOf ⟨[], exGram.pack⟩ exOther) :=
    covers_of_check (by decide +kernel) (ex_evSame (by decide +kernel)) (ex_minus (by decide))
  obtain ⟨sa, sb, hA, hB, t1, t2, t3, t4, v1, v2, v3⟩ : ∃ sa sb,
      CHeader exGram Store.empty (tksOf ⟨['\n'], exGram.pack⟩ exHeader) sa ∧
      CHeader exGram Store.empty (tksOf ⟨[], exGram.pack⟩ exOther) sb ∧
      dkeys (sa.defs .types) = [c%"u32", c%"struct pt"] ∧ dkeys (sa.defs .structs) = [c%"pt"] ∧
      dkeys (sa.defs .functions) = [c%"f"] ∧
      (∀ k, k ≠ .types → k ≠ .structs → k ≠ .functions → dkeys (sa.defs k) = []) ∧
      dkeys (sb.defs .variables) = [c%"z", c%"scale"] ∧ dkeys (sb.defs .values) = [c%"z", c%"scale"] ∧
      (∀ k, k ≠ .variables → k ≠ .values → dkeys (sb.defs k) = []) := by
    refine ⟨_, _, CHeader.cons _ _ _ _ _ ex_typedef (.cons _ _ _ _ _ (ex_struct _ _ rfl)
        (.cons _ _ _ _ [] (ex_proto _ rfl) (.nil _))),
      .cons _ _ _ _ _ (ex_uvar Store.empty) (.cons _ _ _ _ [] (ex_float _) (.nil _)), rfl, rfl, rfl,
      fun k h1 h2 h3 => ?_, rfl, rfl, fun k h1 h2 => ?_⟩
    · cases k <;> first | rfl | exact absurd rfl h1 | exact absurd rfl h2 | exact absurd rfl h3
    · cases k <;> first | rfl | exact absurd rfl h1 | exact absurd rfl h2
  obtain ⟨h1, h2, u, v, h3, h4, h5⟩ := C79_fresh_partial (g := exGram) (by decide) hA (lay_textOf _ _ _ (by decide)) (by decide)
    hB (lay_textOf _ _ _ (by decide)) (by decide) cA cB
    (by rw [t4 _ (by decide) (by decide) (by decide)]; intro n h; cases h)
    (by rw [v2]; intro n h h'; exact h' h)
    (by intro k hk n _ h; cases h)
    (by intro k hk n h; rw [v3 k (by rintro rfl; simp at hk) (by rintro rfl; simp at hk)] at h; cases h)
    (by
      intro k n h h'
      by_cases e1 : k = .variables
      · subst e1; rw [t4 _ (by decide) (by decide) (by decide)] at h; cases h
      · by_cases e2 : k = .values
        · subst e2; rw [t4 _ (by decide) (by decide) (by decide)] at h; cases h
        · rw [v3 k e1 e2] at h'; cases h')
  have has : ∀ {a : St} {k : Kind} {n : Str}, n ∈ dkeys (a.defs k) → dget (u.defs k) n = dget (a.defs k) n →
      dhas (u.defs k) n = true := by
    intro a k n hn e
    unfold dhas
    rw [e, Option.isSome_iff_ne_none]
    exact fun e => dget_none_iff.1 e hn
  have m1 : c%"u32" ∈ dkeys (sa.defs .types) := by rw [t1]; decide
  have m2 : c%"pt" ∈ dkeys (sa.defs .structs) := by rw [t2]; decide
  have m3 : c%"f" ∈ dkeys (sa.defs .functions) := by rw [t3]; decide
  have m4 : c%"scale" ∈ dkeys (sb.defs .variables) := by rw [v1]; decide
  exact ⟨sa, sb, u, v, hA, hB, cA, cB, h1, h2, h3, h4, fun k n => (h5 k n).1, has m1 ((h5 _ _).2.1 m1),
    has m2 ((h5 _ _).2.1 m2), has m3 ((h5 _ _).2.1 m3), has m4 ((h5 _ _).2.2 m4)⟩

/-- The names of the members of `struct anon_struct0` after two texts. -/
def anonOf (t t' : Str) : Option (List (Option Str)) :=
  match dget ((parseDefs exGram (parseDefs exGram Store.empty t).1 t').1.defs .structs) c%"anon_struct0" with
  | some (.compound ms _) => some (ms.map (·.name))
  | _ => none

/-- Structs without tag are numbered: the order of two headers that have nothing in common but such structs decides what
`struct anon_struct0` is. -/
theorem C79_anonymous_counterexample :
    anonOf c%"struct { int x; } p;" c%"struct { char y; } q;" = some [some c%"x"] ∧
    anonOf c%"struct { char y; } q;" c%"struct { int x; } p;" = some [some c%"y"] := by decide +kernel

end Pyclib
