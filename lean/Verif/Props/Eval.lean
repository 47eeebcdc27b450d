import Verif.Proof.EvalText
import Verif.Props.Grammar
/-
Properties C62 and C63: values of constant expressions.
-/
namespace Pyclib

open Spec

/-! ### C62 -/

/-- C62 (partial: no division, chain of comparisons, cast, call, character or octal literal; comparisons within
`| ^ &` in parentheses; names as in `KE.Ok`; see the counterexamples): whatever the blanks, a constant expression in C syntax whose names have integer values
is evaluated to its value in C. -/
theorem C62_value_partial {g : Gram} (hg : gramOk g = true) (tbl : Dict Str DefVal)
    (py : Dict Str DefVal → Str → PVal) (e : KE) (raw : Str) (v : Int) (ht : TextOf (strip raw) e.toks)
    (hok : e.Ok g) (hgr : e.Grammar) (hf : e.Frag (intsOf tbl)) (hv : e.value (intsOf tbl) = some v) :
    evalExpr g py tbl raw = .int v := evalText_value hg tbl py e raw v ht hok hgr hf hv

/-- An expression without the suffixes of its literals. -/
def Spec.KE.bare : KE → KE
  | .lit v _ => .lit v []
  | .id w => .id w
  | .par e => .par e.bare
  | .un o e => .un o e.bare
  | .bin o a b => .bin o a.bare b.bare

/-- The operators and names that the grammar of declarations accepts in an expression. -/
def Spec.KE.InDecl : KE → Prop
  | .lit _ _ => True
  | .id w => startsWith w c%"sizeof" = false ∧ startsWith w c%"new" = false
  | .par e => e.InDecl
  | .un o e => o ≠ .compl ∧ e.InDecl
  | .bin _ a b => a.InDecl ∧ b.InDecl

theorem bare_toks : ∀ e : KE, e.bare.toks = otoks e
  | .lit v s => by simp [KE.bare, KE.toks, otoks]
  | .id w => rfl
  | .par e => by simp [KE.bare, KE.toks, otoks, bare_toks e]
  | .un o e => by simp [KE.bare, KE.toks, otoks, bare_toks e]
  | .bin o a b => by simp [KE.bare, KE.toks, otoks, bare_toks a, bare_toks b]

theorem bare_value (env : Str → Option Int) : ∀ e : KE, e.bare.value env = e.value env
  | .lit v s => rfl
  | .id w => rfl
  | .par e => bare_value env e
  | .un o e => by simp [KE.bare, KE.value, bare_value env e]
  | .bin o a b => by simp [KE.bare, KE.value, bare_value env a, bare_value env b]

theorem bare_level : ∀ e : KE, e.bare.level = e.level
  | .lit v s => rfl
  | .id w => rfl
  | .par e => rfl
  | .un o e => rfl
  | .bin o a b => rfl

theorem bare_grammar : ∀ e : KE, e.Grammar → e.bare.Grammar
  | .lit v s, _ => trivial
  | .id w, _ => trivial
  | .par e, h => bare_grammar e h
  | .un o e, h => ⟨by rw [bare_level]; exact h.1, bare_grammar e h.2⟩
  | .bin o a b, h => ⟨by rw [bare_level]; exact h.1, by rw [bare_level]; exact h.2.1, bare_grammar a h.2.2.1,
      bare_grammar b h.2.2.2⟩

theorem bare_cmp : ∀ e : KE, e.bare.isCmp = e.isCmp
  | .lit v s => rfl
  | .id w => rfl
  | .par e => rfl
  | .un o e => rfl
  | .bin o a b => rfl

theorem bare_frag (env : Str → Option Int) : ∀ e : KE, e.Frag env → e.bare.Frag env
  | .lit v s, _ => trivial
  | .id w, _ => trivial
  | .par e, h => bare_frag env e h
  | .un o e, h => bare_frag env e h
  | .bin o a b, h => ⟨h.1, bare_frag env a h.2.1, bare_frag env b h.2.2.1, by
      rw [bare_value, bare_value]; exact h.2.2.2.1, by rw [bare_cmp, bare_cmp]; exact h.2.2.2.2⟩

theorem bare_ok {g : Gram} : ∀ e : KE, e.Ok g → e.bare.Ok g
  | .lit v s, h => ⟨h.1, rfl, by simpa using h.2.2.2, h.2.2.2⟩
  | .id w, h => h
  | .par e, h => ⟨bare_ok e h.1, fun w he => by
      cases e with
      | id w' => exact h.2 w' rfl
      | _ => cases he⟩
  | .un o e, h => bare_ok e h
  | .bin o a b, h => ⟨bare_ok a h.1, bare_ok b h.2⟩

theorem cexpr_append {g : Gram} {ts' out' : List Str} (h' : CExpr g ts' out') {o : Str} (ho : o ∈ binOps) :
    ∀ {ts out : List Str}, CExpr g ts out → CExpr g (ts ++ o :: ts') (out ++ o :: out')
  | _, _, .atom ts out h => .bin ts out o ts' out' h ho h'
  | _, _, .bin ts out o2 ts2 out2 h ho2 h2 => by
    have := CExpr.bin ts out o2 _ _ h ho2 (cexpr_append h' ho h2)
    simpa using this

/-- An expression of the fragment is accepted in declarations and recorded without suffixes. -/
theorem decl_expr {g : Gram} (env : Str → Option Int) : ∀ e : KE, e.Ok g → e.Grammar → e.Frag env → e.InDecl →
    (8 ≤ e.level → CAtom g e.toks (otoks e)) ∧ CExpr g e.toks (otoks e)
  | .lit v s, h, _, _, _ => ⟨fun _ => atom_num (lit_intTok h.1 h.2.1), .atom _ _ (atom_num (lit_intTok h.1 h.2.1))⟩
  | .id w, h, _, _, hi => ⟨fun _ => atom_ident h.1 hi.1 hi.2, .atom _ _ (atom_ident h.1 hi.1 hi.2)⟩
  | .par e, h, hg, hf, hi => by
    have h1 := (decl_expr env e h.1 hg hf hi).2
    have : CAtom g (KE.par e).toks (otoks (.par e)) := by
      refine .base _ _ (.paren _ _ h1) ?_
      intro n hn
      replace hn : e.toks = [n] := by
        have : e.toks ++ [c%")"] = [n] ++ [c%")"] := by simpa [KE.toks] using hn
        exact List.append_cancel_right this
      cases hid : identOk g n with
      | false => rfl
      | true =>
        obtain ⟨t, ts, e1, k1, k2⟩ := toks_start env e h.1 hf
        rw [hn] at e1
        simp only [List.cons.injEq] at e1
        obtain ⟨rfl, rfl⟩ := e1
        rcases k2 hid with e2 | ⟨u, t', ts', e2, _⟩
        · exact absurd e2 (h.2 n)
        · cases e2
    exact ⟨fun _ => this, .atom _ _ this⟩
  | .un o e, h, hg, hf, hi => by
    have h1 := (decl_expr env e h hg.2 hf hi.2).1 hg.1
    have : CAtom g (KE.un o e).toks (otoks (.un o e)) := by
      refine .sign _ _ _ ?_ h1
      have := hi.1
      revert this
      cases o <;> decide
    exact ⟨fun _ => this, .atom _ _ this⟩
  | .bin o a b, h, hg, hf, hi => by
    refine ⟨fun hl => ?_, ?_⟩
    · have : o.level < 8 := by cases o <;> decide
      simp only [KE.level] at hl
      omega
    · refine cexpr_append (decl_expr env b h.2 hg.2.2.2 hf.2.2.1 hi.2).2 ?_ (decl_expr env a h.1 hg.2.2.1 hf.2.1 hi.1).2
      cases o <;> decide

/-- Tokens on one line, which begin and end with other characters than blanks. -/
def tokOk (w : Str) : Bool := !w.isEmpty && w.all (fun c => !isSpaceC c && !isWhite c)

theorem join_lay (doc : Doc) (hd : doc.tail = []) : ∀ (ws : List Str) (p : Char), (∀ w ∈ ws, tokOk w = true) →
    ∃ tks, tks.map Tk.w = ws ∧ Lay doc p (ws.flatMap (fun w => ' ' :: w)) tks
  | [], p, _ => ⟨[], rfl, by
      have := Lay.nil (doc := doc) p
      rw [hd] at this
      exact this⟩
  | [] :: ws, p, h => absurd (h [] (by simp)) (by decide)
  | (c :: w) :: ws, p, h => by
    obtain ⟨tks, e, hl⟩ := join_lay doc hd ws ((c :: w).getLastD ' ') (fun w hw => h w (by simp [hw]))
    have h1 := h (c :: w) (by simp)
    simp only [tokOk, List.all_cons, Bool.and_eq_true, Bool.not_eq_true'] at h1
    have := Lay.cons (doc := doc) p [' '] c w _ tks _ rfl h1.2.1.2 (.inl (by simp)) (fun _ _ => rfl) hl
    have e2 : ((c :: w) :: ws).flatMap (fun w => ' ' :: w) = [' '] ++ (c :: w) ++ ws.flatMap (fun w => ' ' :: w) := by
      simp
    rw [e2]
    refine ⟨_, ?_, this⟩
    rw [List.map_cons, e]

theorem joinC_flat (w : Str) (ws : List Str) : joinC ' ' (w :: ws) = w ++ ws.flatMap (fun w => ' ' :: w) := by
  induction ws generalizing w with
  | nil => simp [joinC]
  | cons v ws ih =>
    rw [joinC_cons ' ' w (by simp), ih]
    simp

theorem strip_id {s : Str} (h1 : ∀ c, s.head? = some c → isSpaceC c = false)
    (h2 : ∀ c, s.getLast? = some c → isSpaceC c = false) : strip s = s := by
  have hl : ∀ t : Str, (∀ c, t.head? = some c → isSpaceC c = false) → t.dropWhile isSpaceC = t := by
    intro t h
    cases t with
    | nil => rfl
    | cons c t => simp [h c rfl]
  unfold strip lstrip rstrip
  rw [hl s h1, hl s.reverse (by simpa using h2), List.reverse_reverse]

theorem space_tok {w : Str} (h : tokOk w = true) : w ≠ [] ∧ ∀ c ∈ w, isSpaceC c = false ∧ isWhite c = false := by
  simp only [tokOk, Bool.and_eq_true, Bool.not_eq_true', List.isEmpty_eq_false_iff] at h
  refine ⟨h.1, fun c hc => ?_⟩
  have := List.all_eq_true.1 h.2 c hc
  simpa using this

/-- Tokens with single blanks between them are a text of the tokens. -/
theorem textOf_join {ws : List Str} (h : ∀ w ∈ ws, tokOk w = true) : TextOf (strip (joinC ' ' ws)) ws := by
  cases ws with
  | nil => exact ⟨⟨[], rfl, .nil _⟩, by intro c hc; cases hc⟩
  | cons w ws =>
    have hmem : ∀ c ∈ joinC ' ' (w :: ws), c = ' ' ∨ isWhite c = false := by
      rw [joinC_flat]
      intro c hc
      simp only [List.mem_append, List.mem_flatMap, List.mem_cons] at hc
      rcases hc with hc | ⟨v, hv, rfl | hc⟩
      · exact .inr ((space_tok (h w (by simp))).2 c hc).2
      · exact .inl rfl
      · exact .inr ((space_tok (h v (by simp [hv]))).2 c hc).2
    have hlast : ∀ (ws : List Str) (w : Str), (∀ v ∈ w :: ws, tokOk v = true) →
        ∀ c, (joinC ' ' (w :: ws)).getLast? = some c → isSpaceC c = false := by
      intro ws
      induction ws with
      | nil =>
        intro w h c hc
        exact ((space_tok (h w (by simp))).2 c (List.mem_of_getLast? hc)).1
      | cons v ws ih =>
        intro w h c hc
        refine ih v (fun u hu => h u (by simp only [List.mem_cons] at hu ⊢; exact .inr hu)) c ?_
        rw [joinC_cons ' ' w (by simp), List.getLast?_append] at hc
        have hne : joinC ' ' (v :: ws) ≠ [] := by
          rw [joinC_flat]
          have := (space_tok (h v (by simp))).1
          simp [this]
        cases hj : joinC ' ' (v :: ws) with
        | nil => exact absurd hj hne
        | cons a l =>
          rw [hj] at hc
          rw [List.getLast?_cons_cons] at hc
          cases hq : (a :: l).getLast? with
          | none => simp at hq
          | some d => rw [hq] at hc; simpa using hc
    have hs : strip (joinC ' ' (w :: ws)) = joinC ' ' (w :: ws) := by
      refine strip_id ?_ (hlast ws w h)
      intro c hc
      rw [joinC_flat] at hc
      have h1 := space_tok (h w (by simp))
      cases w with
      | nil => exact absurd rfl h1.1
      | cons d w =>
        simp only [List.cons_append, List.head?_cons, Option.some.injEq] at hc
        subst hc
        exact (h1.2 d (by simp)).1
    rw [hs]
    refine ⟨?_, fun c hc => ?_⟩
    · have h1 := space_tok (h w (by simp))
      cases w with
      | nil => exact absurd rfl h1.1
      | cons d w =>
        obtain ⟨tks, e, hl⟩ := join_lay ⟨[], fun _ => none⟩ rfl ws ((d :: w).getLastD ' ') (fun v hv => h v (by simp [hv]))
        have hap : apart ' ' d = true := by
          unfold apart
          have : ∀ o ∈ pairOps, o.head? ≠ some ' ' := by decide
          simp only [show isIdC ' ' = false from by decide, Bool.false_and, Bool.not_false, Bool.true_and,
            Bool.not_eq_true', decide_eq_false_iff_not]
          intro hm
          exact this _ hm rfl
        have := Lay.cons (doc := ⟨[], fun _ => none⟩) ' ' [] d w _ tks _ rfl (h1.2 d (by simp)).2 (.inr hap) (fun _ _ => rfl) hl
        rw [joinC_flat]
        refine ⟨_, ?_, this⟩
        rw [List.map_cons, e]
    · rcases hmem c hc with rfl | hw
      · decide
      · constructor <;> (rintro rfl; exact absurd hw (by decide))

theorem word_tok {w : Str} (h : wordOk w = true) : tokOk w = true := by
  simp only [wordOk, Bool.and_eq_true] at h
  simp only [tokOk, Bool.and_eq_true]
  refine ⟨h.1, ?_⟩
  rw [List.all_eq_true]
  intro c hc
  have hw := List.all_eq_true.1 h.2 c hc
  cases h1 : isSpaceC c with
  | true => rw [isSpaceC_not_word h1] at hw; cases hw
  | false =>
    cases h2 : isWhite c with
    | true => rw [isSpaceC_white h2] at h1; cases h1
    | false => rfl

theorem syms_tok : ∀ w ∈ kBins ++ [c%"~", c%"(", c%")"], tokOk w = true := by decide

theorem ke_toks_ok {g : Gram} (env : Str → Option Int) (e : KE) (h : e.Ok g) (hf : e.Frag env) :
    ∀ w ∈ e.toks, tokOk w = true := by
  have h1 := toks_stok env e h hf
  have key : ∀ {ws outs : List Str}, All2 (STok g) ws outs → ∀ w ∈ ws, tokOk w = true := by
    intro ws outs h
    induction h with
    | nil => intro w hw; cases hw
    | cons a b as bs h hs ih =>
      intro w hw
      simp only [List.mem_cons] at hw
      rcases hw with rfl | hw
      · cases h with
        | num _ h => exact word_tok (intTok_word h)
        | id h _ => exact word_tok (identOk_word h).1
        | sym h => exact syms_tok _ h
      · exact ih w hw
  exact key h1

/-- C62 (partial as above): a constant expression of the fragment in a declaration (array length,
enumerator, initialiser, width of a bit field) is recorded as a text that is evaluated to its value in C. -/
theorem C62_declaration_partial {g : Gram} (hg : gramOk g = true) (tbl : Dict Str DefVal)
    (py : Dict Str DefVal → Str → PVal) (e : KE) (ts : List Tk) (v : Int) (ht : ts.map Tk.w = e.toks)
    (hok : e.Ok g) (hgr : e.Grammar) (hf : e.Frag (intsOf tbl)) (hi : e.InDecl) (hv : e.value (intsOf tbl) = some v) :
    ∃ x, ExprTks g ts x ∧ evalExpr g py tbl x = .int v := by
  refine ⟨joinC ' ' (otoks e), ⟨_, by rw [ht]; exact (decl_expr _ e hok hgr hf hi).2, rfl⟩, ?_⟩
  have h1 := bare_ok e hok
  have h2 := bare_frag _ e hf
  refine C62_value_partial hg tbl py e.bare _ v ?_ h1 (bare_grammar e hgr) h2 (by rw [bare_value]; exact hv)
  rw [← bare_toks]
  exact textOf_join (ke_toks_ok _ _ h1 h2)

/-- The values of enumerators in C (ISO C 6.7.2.2), given the values of the other names; `none` if an
expression has no value. -/
def Spec.cEnum (env : Str → Option Int) (prev : Int) : List (Str × Option KE) → Option (List (Str × Int))
  | [] => some []
  | (n, e) :: ms =>
    (match e with
      | none => some (prev + 1)
      | some e => e.value env).bind fun v =>
      (cEnum (fun w => if w = n then some v else env w) v ms).map ((n, v) :: ·)

/-- The expressions of the enumerators are within the fragment. -/
def Spec.CEnumOk (g : Gram) (env : Str → Option Int) (prev : Int) : List (Str × Option KE) → Prop
  | [] => True
  | (n, e) :: ms =>
    (∀ e', e = some e' → e'.Ok g ∧ e'.Grammar ∧ e'.Frag env ∧ e'.InDecl) ∧
    ∀ v, (match e with
      | none => some (prev + 1)
      | some e => e.value env) = some v → CEnumOk g (fun w => if w = n then some v else env w) v ms

/-- The texts recorded for the enumerators. -/
def enumTexts (ms : List (Str × Option KE)) : List (Str × Option Str) :=
  ms.map (fun p => (p.1, p.2.map (fun e => joinC ' ' (otoks e))))

theorem intsOf_dset (tbl : Dict Str DefVal) (n : Str) (v : Int) :
    intsOf (dset tbl n (.value (.int v))) = fun w => if w = n then some v else intsOf tbl w := by
  funext w
  unfold intsOf
  rw [dget_dset]
  by_cases h : w = n
  · simp [h]
  · have h' : ¬ n = w := fun e => h e.symm
    simp [h, h']

theorem cEnum_evals {g : Gram} (hg : gramOk g = true) (py : Dict Str DefVal → Str → PVal) :
    ∀ (ms : List (Str × Option KE)) (tbl : Dict Str DefVal) (prev : Int) (vs : List (Str × Int)),
      CEnumOk g (intsOf tbl) prev ms → cEnum (intsOf tbl) prev ms = some vs →
      ∃ ws, EvalsTo (evalExpr g py) tbl prev (enumTexts ms) ws ∧ enumVals prev ws = vs
  | [], tbl, prev, vs, _, h => by
    simp only [cEnum, Option.some.injEq] at h
    exact ⟨[], trivial, by rw [← h]; rfl⟩
  | (n, none) :: ms, tbl, prev, vs, hok, h => by
    simp only [cEnum, Option.bind_some, Option.map_eq_some_iff] at h
    obtain ⟨us, h, rfl⟩ := h
    have h1 := hok.2 _ rfl
    rw [← intsOf_dset] at h1 h
    obtain ⟨ws, k1, k2⟩ := cEnum_evals hg py ms _ _ us h1 h
    exact ⟨(n, none) :: ws, ⟨rfl, trivial, k1⟩, by simp [enumVals, k2]⟩
  | (n, some e) :: ms, tbl, prev, vs, hok, h => by
    simp only [cEnum, Option.bind_eq_some_iff, Option.map_eq_some_iff] at h
    obtain ⟨v, hv, us, h, rfl⟩ := h
    have h1 := hok.2 _ hv
    rw [← intsOf_dset] at h1 h
    obtain ⟨ws, k1, k2⟩ := cEnum_evals hg py ms _ _ us h1 h
    obtain ⟨j1, j2, j3, j4⟩ := hok.1 e rfl
    have hval : evalExpr g py tbl (joinC ' ' (otoks e)) = .int v := by
      have h1 := bare_ok e j1
      have h2 := bare_frag _ e j3
      refine C62_value_partial hg tbl py e.bare _ v ?_ h1 (bare_grammar e j2) h2 (by rw [bare_value]; exact hv)
      rw [← bare_toks]
      exact textOf_join (ke_toks_ok _ _ h1 h2)
    exact ⟨(n, some v) :: ws, ⟨rfl, hval, k1⟩, by simp [enumVals, k2]⟩

/-- C62, C33 (partial as above): the enumerators of an enum get the values they have in C. -/
theorem C62_enum_partial {g : Gram} (hg : gramOk g = true) (py : Dict Str DefVal → Str → PVal) (s : Store DefVal)
    (name : Option Str) (ms : List (Str × Option KE)) (vs : List (Str × Int))
    (hok : CEnumOk g (intsOf (s.defs .values)) (-1) ms) (hv : cEnum (intsOf (s.defs .values)) (-1) ms = some vs)
    (hn : (ms.map (·.1)).Nodup) (hnew : ∀ n, name = some n → dhas (s.defs .enums) n = false) :
    let n := name.getD (anonName c%"anon_enum" (s.defs .enums))
    ∃ s', procEnum (evalExpr g py) s name (enumTexts ms) = (s', some (c%"enum " ++ n)) ∧
      dget (s'.defs .enums) n = some (.enum (vs.map fun p => (p.1, .int p.2))) ∧
      ∀ p ∈ vs, dget (s'.defs .values) p.1 = some (.value (.int p.2)) := by
  intro n
  obtain ⟨ws, k1, k2⟩ := cEnum_evals hg py ms _ _ vs hok hv
  have hn' : ((enumTexts ms).map (·.1)).Nodup := by simpa [enumTexts, Function.comp_def] using hn
  obtain ⟨s', h1, h2, h3, _⟩ := C33_values (evalExpr g py) s name (enumTexts ms) ws k1 hn' hnew
  rw [k2] at h2 h3
  exact ⟨s', h1, h2, h3⟩

/-- An interpreter for the examples: never consulted. -/
def noPy : Dict Str DefVal → Str → PVal := fun _ _ => .none

/-- Values for the examples. -/
def exTbl : Dict Str DefVal := [(c%"N", .value (.int 7)), (c%"FLAG_A", .value (.int 2))]

/-- `-N + (1 << 0x4UL) % 10u | ~FLAG_A`-like expression of the fragment. -/
def exKE : KE :=
  .bin .or (.bin .add (.un .minus (.id c%"N")) (.bin .mod (.par (.bin .shl (.lit c%"1" []) (.lit c%"0x4" c%"UL"))) (.lit c%"10" c%"U")))
    (.un .compl (.id c%"FLAG_A"))

/-- Its tokens in one layout. -/
def exLay : List (Str × Str) :=
  [([], c%"-"), ([], c%"N"), ([], c%"+"), ([], c%"("), ([], c%"1"), ([], c%"<<"),
    ([], c%"0x4UL"), ([], c%")"), ([], c%"%"), ([], c%"10U"), ([' '], c%"|"), ([], c%"~"), ([' '], c%"FLAG_A")]

/-- The hypotheses of `C62_value_partial` hold for ` -N+(1<<0x4UL)%10U |~ FLAG_A`, whose value is -1. -/
example : TextOf (strip c%" -N+(1<<0x4UL)%10U |~ FLAG_A ") exKE.toks ∧ exKE.Ok exGram ∧ exKE.Grammar ∧
    exKE.Frag (intsOf exTbl) ∧ exKE.value (intsOf exTbl) = some (-1) ∧
    evalExpr exGram noPy exTbl c%" -N+(1<<0x4UL)%10U |~ FLAG_A " = .int (-1) := by
  refine ⟨⟨⟨tksOf ⟨[], fun _ => none⟩ exLay, by rfl,
    lay_textOf ⟨[], fun _ => none⟩ exLay ' ' (by decide)⟩, by decide⟩, ?_, ?_, ?_, by decide, by rfl⟩
  · simp only [exKE, KE.Ok, litOk]
    refine ⟨⟨⟨by decide, by decide, by decide⟩, ⟨⟨⟨.inl (by decide), by decide, by decide, by decide⟩,
      ⟨.inr ⟨'x', c%"4", by decide⟩, by decide, by decide, by decide⟩⟩, by simp⟩, ⟨.inl (by decide), by decide, by decide, by decide⟩⟩,
      ⟨by decide, by decide, by decide⟩⟩
  · simp [exKE, KE.Grammar, KE.level, KBin.level]
  · have h : ∀ x, some (16 : Int) = some x → 0 ≤ x := by
      intro x h
      cases h
      decide
    have h' : ∀ x, some (10 : Int) = some x → 0 ≤ x := by
      intro x h
      cases h
      decide
    refine ⟨by decide, ⟨by decide, trivial, ⟨by decide, ⟨by decide, trivial, trivial, by simp, by simp⟩, trivial, fun _ => ⟨h, h'⟩, by simp⟩, by simp, by simp⟩,
      trivial, by simp, fun _ => ⟨rfl, rfl⟩⟩

/-- `(N>=3)<<1 | (N!= 7)`. -/
def exCmp : KE := .bin .or (.bin .shl (.par (.bin .ge (.id c%"N") (.lit c%"3" []))) (.lit c%"1" []))
  (.par (.bin .ne (.id c%"N") (.lit c%"7" [])))

/-- Its tokens with the blanks before them. -/
def exCmpLay : List (Str × Str) :=
  [([], c%"("), ([], c%"N"), ([], c%">="), ([], c%"3"), ([], c%")"), ([], c%"<<"),
    ([], c%"1"), ([' '], c%"|"), ([' '], c%"("), ([], c%"N"), ([], c%"!="), ([' '], c%"7"), ([], c%")")]

/-- The hypotheses of `C62_value_partial` hold for `(N>=3)<<1 | (N!= 7)`, whose value is 2. -/
example : TextOf (strip c%"(N>=3)<<1 | (N!= 7)") exCmp.toks ∧ exCmp.Ok exGram ∧ exCmp.Grammar ∧
    exCmp.Frag (intsOf exTbl) ∧ exCmp.value (intsOf exTbl) = some 2 ∧
    evalExpr exGram noPy exTbl c%"(N>=3)<<1 | (N!= 7)" = .int 2 := by
  refine ⟨⟨⟨tksOf ⟨[], fun _ => none⟩ exCmpLay, by rfl,
    lay_textOf ⟨[], fun _ => none⟩ exCmpLay ' ' (by decide)⟩, by decide⟩, ?_, ?_, ?_, by decide, by rfl⟩
  · simp only [exCmp, KE.Ok, litOk]
    exact ⟨⟨⟨⟨⟨by decide, by decide, by decide⟩, ⟨.inl (by decide), by decide, by decide, by decide⟩⟩, by simp⟩,
      ⟨.inl (by decide), by decide, by decide, by decide⟩⟩,
      ⟨⟨by decide, by decide, by decide⟩, ⟨.inl (by decide), by decide, by decide, by decide⟩⟩, by simp⟩
  · simp [exCmp, KE.Grammar, KE.level, KBin.level]
  · exact ⟨by decide, ⟨by decide, ⟨by decide, trivial, trivial, by simp, fun _ => ⟨rfl, rfl⟩⟩, trivial, by simp, by simp⟩,
      ⟨by decide, trivial, trivial, by simp, fun _ => ⟨rfl, rfl⟩⟩, by simp, fun _ => ⟨rfl, rfl⟩⟩

/-- The hypotheses of `C62_enum_partial` hold for `enum { A = 1 << 2, B, C = A | B }`: 4, 5, 5. -/
example : let ms := [(c%"A", some (KE.bin .shl (.lit c%"1" []) (.lit c%"2" []))), (c%"B", none),
      (c%"C", some (.bin .or (.id c%"A") (.id c%"B")))]
    CEnumOk exGram (fun _ => none) (-1) ms ∧ cEnum (fun _ => none) (-1) ms = some [(c%"A", 4), (c%"B", 5), (c%"C", 5)] := by
  refine ⟨⟨?_, fun v hv => ⟨by simp, fun v' hv' => ⟨?_, fun _ _ => trivial⟩⟩⟩, by decide⟩
  · rintro e ⟨rfl⟩
    exact ⟨⟨⟨.inl (by decide), by decide, by decide, by decide⟩, ⟨.inl (by decide), by decide, by decide, by decide⟩⟩,
      by simp [KE.Grammar, KE.level, KBin.level], ⟨by decide, trivial, trivial, by simp, by simp⟩, trivial, trivial⟩
  · rintro e ⟨rfl⟩
    exact ⟨⟨⟨by decide, by decide, by decide⟩, ⟨by decide, by decide, by decide⟩⟩,
      by simp [KE.Grammar, KE.level, KBin.level], ⟨by decide, trivial, trivial, by simp, fun _ => ⟨rfl, rfl⟩⟩, ⟨by decide, by decide⟩, ⟨by decide, by decide⟩⟩

/-- C62 fails for octal literals: `010` is 8 in C, but has no value here, whatever Python does elsewhere. -/
theorem C62_counterexample_octal (py : Dict Str DefVal → Str → PVal) :
    (KE.lit c%"010" []).value (fun _ => none) = some 8 ∧ evalExpr exGram py [] c%"010" = .none := ⟨by decide, by rfl⟩

/-- C62 fails for a name alone in parentheses, which is taken for a cast: `(N) + 1` is 8 in C for N = 7, but
1 here. -/
theorem C62_counterexample_parens (py : Dict Str DefVal → Str → PVal) :
    (KE.bin .add (.par (.id c%"N")) (.lit c%"1" [])).value (intsOf exTbl) = some 8 ∧
    evalExpr exGram py exTbl c%"(N) + 1" = .int 1 ∧ evalExpr exGram py exTbl c%"(N)" = .none := ⟨by decide, by rfl, by rfl⟩

/-- C62 fails for names in which a digit is followed by `U` or `L`: the letter is dropped as a suffix. -/
theorem C62_counterexample_name : evalText exGram c%"V4L2_BUF" = c%"V42_BUF" ∧
    evalExpr exGram noPy [(c%"N2", .value (.int 1)), (c%"N2U", .value (.int 5))] c%"N2U" = .int 1 := ⟨by rfl, by rfl⟩

/-- C62 fails for the remainder of a negative number: `-7 % 3` is -1 in C, but 2 here. -/
theorem C62_counterexample_mod (py : Dict Str DefVal → Str → PVal) :
    (KE.bin .mod (.un .minus (.lit c%"7" [])) (.lit c%"3" [])).value (fun _ => none) = some (-1) ∧
    evalExpr exGram py [] c%"-7 % 3" = .int 2 := ⟨by decide, by rfl⟩

/-- C62 fails for names that are keywords of Python, such as `in`: the expression is left to Python, where it is
a syntax error. -/
theorem C62_counterexample_keyword (py : Dict Str DefVal → Str → PVal) :
    (KE.bin .add (.id c%"in") (.lit c%"1" [])).value (intsOf [(c%"in", .value (.int 4))]) = some 5 ∧
    evalExpr exGram py [(c%"in", .value (.int 4))] c%"in + 1" = py [(c%"in", .value (.int 4))] c%"in + 1" := ⟨by decide, by rfl⟩

/-- Suffixes in lower case are not dropped: `1u` is left to Python (a syntax error). -/
theorem C62_counterexample_suffix (py : Dict Str DefVal → Str → PVal) (tbl : Dict Str DefVal) :
    evalExpr exGram py tbl c%"1u" = py tbl c%"1u" := by rfl

/-- Division is that of Python: `10 / 4` is the float 2.5 instead of 2, and even `6 / 2` is a float. -/
theorem C62_counterexample_division (py : Dict Str DefVal → Str → PVal) (tbl : Dict Str DefVal) :
    evalExpr exGram py tbl c%"10 / 4" = .flt (5 / 2) ∧ evalExpr exGram py tbl c%"6 / 2" = .flt 3 ∧
    evalExpr exGram py tbl c%"6 / 0" = .none := by
  have h1 : evalText exGram c%"10 / 4" = c%"10 / 4" := by rfl
  have h2 : evalText exGram c%"6 / 2" = c%"6 / 2" := by rfl
  have h3 : evalText exGram c%"6 / 0" = c%"6 / 0" := by rfl
  refine ⟨?_, ?_, ?_⟩
  · unfold evalExpr
    rw [h1]
    exact congrArg PVal.flt (show ((10 : Int) : Rat) / ((4 : Int) : Rat) = 5 / 2 by decide +kernel)
  · unfold evalExpr
    rw [h2]
    exact congrArg PVal.flt (show ((6 : Int) : Rat) / ((2 : Int) : Rat) = 3 by decide +kernel)
  · unfold evalExpr
    rw [h3]
    rfl

/-- C62 fails for comparisons within `| ^ &` without parentheses: `1 | 2 == 2` is 1 in C, but Python compares last
and the value is `False`. -/
theorem C62_counterexample_precedence (py : Dict Str DefVal → Str → PVal) (tbl : Dict Str DefVal) :
    (KE.bin .or (.lit c%"1" []) (.bin .eq (.lit c%"2" []) (.lit c%"2" []))).Grammar ∧
    (KE.bin .or (.lit c%"1" []) (.bin .eq (.lit c%"2" []) (.lit c%"2" []))).value (intsOf tbl) = some 1 ∧
    evalExpr exGram py tbl c%"1 | 2 == 2" = .int 0 :=
  ⟨by simp [KE.Grammar, KE.level, KBin.level], by rfl, by rfl⟩

/-- C62 fails for chains of comparisons: they are left to Python as they stand, where `3 > 2 > 1` holds because both
comparisons do; in C it is 0. -/
theorem C62_counterexample_chain (py : Dict Str DefVal → Str → PVal) (tbl : Dict Str DefVal) :
    (KE.bin .gt (.bin .gt (.lit c%"3" []) (.lit c%"2" [])) (.lit c%"1" [])).value (intsOf tbl) = some 0 ∧
    evalExpr exGram py tbl c%"3 > 2 > 1" = py tbl c%"3 > 2 > 1" := ⟨by rfl, by rfl⟩

/-- Logical operators are left to Python as they stand, where they are syntax errors. -/
theorem C62_counterexample_logic (py : Dict Str DefVal → Str → PVal) (tbl : Dict Str DefVal) :
    evalExpr exGram py tbl c%"!1" = py tbl c%"!1" ∧ evalExpr exGram py tbl c%"1 ? 2 : 3" = py tbl c%"1 ? 2 : 3" :=
  ⟨by rfl, by rfl⟩

/-! ### C63 -/

/-- C63 (partial: the fragment of C62): the value of a constant expression does not depend on the Python
process that evaluates it: not on its names, modules or built-in functions. -/
theorem C63_environment_partial {g : Gram} (hg : gramOk g = true) (tbl : Dict Str DefVal)
    (py py' : Dict Str DefVal → Str → PVal) (e : KE) (raw : Str) (ht : TextOf (strip raw) e.toks)
    (hok : e.Ok g) (hgr : e.Grammar) (hf : e.Frag (intsOf tbl)) (hv : (e.value (intsOf tbl)).isSome = true) :
    evalExpr g py tbl raw = evalExpr g py' tbl raw := by
  obtain ⟨v, hv⟩ := Option.isSome_iff_exists.1 hv
  rw [C62_value_partial hg tbl py e raw v ht hok hgr hf hv, C62_value_partial hg tbl py' e raw v ht hok hgr hf hv]

/-- C63, for any text: if the tokens are those of integer arithmetic and every name is an integer or
`None` in the table of values (an integer if there are comparisons, of which there are no chains), the result does not depend on the Python process. -/
theorem C63_tokens {g : Gram} (tbl : Dict Str DefVal) (py py' : Dict Str DefVal → Str → PVal) (raw : Str)
    (ts : List KTok) (ht : kTok ((evalText g raw).length + 1) (evalText g raw) = some ts) (hp : kPlain tbl ts = true)
    (hc : kCmp tbl ts = true) : evalExpr g py tbl raw = evalExpr g py' tbl raw := by
  unfold evalExpr pyEvalK
  simp only [ht, hp, hc, Bool.and_self, if_true]

/-- C63 fails for calls: the text of the header is executed by Python as it stands, and the value is what
Python says. -/
theorem C63_counterexample_call (py : Dict Str DefVal → Str → PVal) (tbl : Dict Str DefVal) :
    evalExpr exGram py tbl c%"exit(1)" = py tbl c%"exit(1)" := by rfl

/-- C63 fails for names without a value, which are looked up in the module and among the built-in names. -/
theorem C63_counterexample_name (py : Dict Str DefVal → Str → PVal) :
    evalExpr exGram py [] c%"os" = py [] c%"os" := by rfl

end Pyclib
