import Verif.Proof.GrammarNest
/-
Proof that the parser reads every text laid out from the tokens of a declaration as that declaration:
types, declarators, parameter lists, struct and enum bodies.
-/
namespace Pyclib

open Spec

attribute [local irreducible] exprP exprN

/-! ### What may follow -/

/-- A type may end in front of these tokens. -/
def AfterType (g : Gram) : List Tk → Prop
  | [] => False
  | t :: k => t.hd ≠ '{' ∧ t.hd ≠ '"' ∧ t.hd ≠ '\'' ∧
      (symOk t = true ∨ (wordOk t.w = true ∧ k ≠ [] ∧ t.w ∉ fundWords g.cfg ∧ t.w ∉ g.mods))

/-- The name of a type may end in front of these tokens. -/
def AfterName (g : Gram) : List Tk → Prop
  | [] => False
  | t :: k => t.hd ≠ '{' ∧ t.hd ≠ '"' ∧ t.hd ≠ '\'' ∧
      (symOk t = true ∨ (wordOk t.w = true ∧ k ≠ [] ∧ t.w ∉ fundWords g.cfg))

theorem AfterType.name {g : Gram} {k : List Tk} (h : AfterType g k) : AfterName g k := by
  cases k with
  | nil => exact h
  | cons t k =>
    obtain ⟨a, b, c, d⟩ := h
    exact ⟨a, b, c, d.imp id (fun x => ⟨x.1, x.2.1, x.2.2.1⟩)⟩

/-- A declarator may end in front of these tokens. -/
def AfterDecl : List Tk → Prop
  | [] => False
  | t :: _ => t.hd ∈ [',', ')', ';', '=', '{', ':']

/-- An abstract or missing declarator may end in front of these tokens. -/
def AfterAbs : List Tk → Prop
  | [] => False
  | t :: _ => t.hd ∈ [',', ')', ';', '=', ':', '}']

theorem word_hd {t : Tk} (h : wordOk t.w = true) : isWordC t.hd = true := by
  cases e : t.w with
  | nil => rw [e] at h; exact absurd h (by decide)
  | cons c w =>
    rw [e] at h
    simp only [wordOk, List.all_cons, Bool.and_eq_true] at h
    rw [hd_of e]
    exact h.2.1

theorem word_hd_ne {t : Tk} (h : wordOk t.w = true) {c : Char} (hc : isWordC c = false) : t.hd ≠ c := by
  intro e
  have := word_hd h
  rw [e, hc] at this
  cases this

theorem afterType_word {g : Gram} {t : Tk} {k : List Tk} (h : wordOk t.w = true) (hk : k ≠ [])
    (h1 : t.w ∉ fundWords g.cfg) (h2 : t.w ∉ g.mods) : AfterType g (t :: k) :=
  ⟨word_hd_ne h (by decide), word_hd_ne h (by decide), word_hd_ne h (by decide), .inr ⟨h, hk, h1, h2⟩⟩

theorem afterType_sym {g : Gram} {t : Tk} {k : List Tk}
    (h : t.hd ∈ [',', ')', ';', '=', ':', '*', '&', '(', '[']) : AfterType g (t :: k) := by
  have h0 : ∀ c ∈ [',', ')', ';', '=', ':', '*', '&', '(', '['], c ≠ '{' ∧ c ≠ '"' ∧ c ≠ '\'' ∧ isIdC c = false := by
    decide
  obtain ⟨h1, h2, h3, h4⟩ := h0 _ h
  exact ⟨h1, h2, h3, .inl (by simp [symOk, h4])⟩

/-! ### Types -/

theorem fundLoop_stop {g : Gram} (hg : gramOk g = true) {doc : Doc} {x : Pos} {k : List Tk} (h : At doc x k)
    (hk : AfterName g k) (n : Nat) : fundLoop g.cfg n x = ([], x) := by
  cases n with
  | zero => rfl
  | succ n =>
    cases k with
    | nil => exact absurd hk (by simp [AfterName])
    | cons t k =>
      obtain ⟨_, _, _, hs | ⟨h1, h2, h3⟩⟩ := hk
      · simp only [fundLoop, kwl_sym h hs _ (nil_fund hg)]
      · simp only [fundLoop, kwl_word h h2 h1, if_neg h3]

theorem afterName_ne {g : Gram} {k : List Tk} (h : AfterName g k) : k ≠ [] := by
  cases k with
  | nil => exact absurd h (by simp [AfterName])
  | cons => simp

theorem fundLoop_read {g : Gram} (hg : gramOk g = true) {doc : Doc} {k : List Tk} (hk : AfterName g k) :
    ∀ (ts : List Tk) (x : Pos) (n : Nat), At doc x (ts ++ k) → (∀ u ∈ ts, u.w ∈ fundWords g.cfg) →
      ts.length ≤ n → fundLoop g.cfg n x = (ts.map Tk.w, advs x ts)
  | [], x, n, h, _, _ => fundLoop_stop hg h hk n
  | u :: ts, x, n, h, hu, hn => by
    obtain ⟨n, rfl⟩ : ∃ m, n = m + 1 := ⟨n - 1, by simp at hn; omega⟩
    have h1 := hu u (by simp)
    have ih := fundLoop_read hg hk ts (adv x u) n (At.tail h) (fun v hv => hu v (by simp [hv])) (by simpa using hn)
    simp only [fundLoop, kwl_word h (by simp [afterName_ne hk]) (keyword_wordOk hg (fund_keyword h1)),
      if_pos h1, ih]
    rfl

theorem fundP_read {g : Gram} (hg : gramOk g = true) {doc : Doc} {k : List Tk} (hk : AfterName g k)
    {t : Tk} {ts : List Tk} {x : Pos} (h : At doc x (t :: ts ++ k)) (hu : ∀ u ∈ t :: ts, u.w ∈ fundWords g.cfg) :
    fundP g.cfg x = some (joinC ' ' ((t :: ts).map Tk.w), advs x (t :: ts)) := by
  have h1 := hu t (by simp)
  have hl := At.length (At.tail h)
  have ih := fundLoop_read hg hk ts (adv x t) (adv x t).rest.length (At.tail h) (fun v hv => hu v (by simp [hv]))
    (by simp at hl; omega)
  unfold fundP
  simp only [kwl_word h (by simp [afterName_ne hk]) (keyword_wordOk hg (fund_keyword h1)), if_pos h1, ih]
  rfl

theorem afterType_ne {g : Gram} {k : List Tk} (h : AfterType g k) : k ≠ [] := afterName_ne h.name

theorem fundP_word {g : Gram} {doc : Doc} {x : Pos} {t : Tk} {k : List Tk} (h : At doc x (t :: k))
    (hk : k ≠ []) (hw : wordOk t.w = true) (hn : t.w ∉ fundWords g.cfg) : fundP g.cfg x = none := by
  unfold fundP
  simp only [kwl_word h hk hw, if_neg hn]

theorem fundP_sym {g : Gram} (hg : gramOk g = true) {doc : Doc} {x : Pos} {t : Tk} {k : List Tk}
    (h : At doc x (t :: k)) (hs : symOk t = true) : fundP g.cfg x = none := by
  unfold fundP
  simp only [kwl_sym h hs _ (nil_fund hg)]

theorem modLoop_no {g : Gram} (hg : gramOk g = true) {doc : Doc} {x : Pos} {k : List Tk} (h : At doc x k)
    (hk : AfterType g k) (n : Nat) : modLoop g.mods n x = x := by
  cases n with
  | zero => rfl
  | succ n =>
    cases k with
    | nil => exact absurd hk (by simp [AfterType])
    | cons t k =>
      obtain ⟨_, _, _, hs | ⟨h1, h2, _, h3⟩⟩ := hk
      · simp only [modLoop, kwl_sym h hs _ (nil_mods hg)]
      · simp only [modLoop, kwl_word h h2 h1, if_neg h3]

/-- Words of the language that begin a struct, union or enum specifier. -/
theorem kw_facts {g : Gram} (hg : gramOk g = true) {w : Str} (h : w ∈ [c%"struct", c%"union", c%"enum"]) :
    wordOk w = true ∧ w ∉ fundWords g.cfg ∧ w ∈ keywords g.cfg ∧ w ∉ qualWords ∧ w ∉ storageWords ∧ w ≠ c%"typedef" := by
  have h1 : ∀ w ∈ [c%"struct", c%"union", c%"enum"], wordOk w = true ∧ w ∉ qualWords ∧ w ∉ storageWords ∧
      w ≠ c%"typedef" ∧ w ∈ [c%"struct", c%"enum", c%"union", c%"__stdcall", c%"__cdecl"] := by decide
  obtain ⟨a, b, c, d, e⟩ := h1 w h
  refine ⟨a, ?_, kw_keyword _ e, b, c, d⟩
  intro hf
  exact fund_not hg hf (List.mem_append_left _ (List.mem_append_left _ e))

theorem ident_not_fund {g : Gram} {t : Tk} (h : identOk g t.w = true) : t.w ∉ fundWords g.cfg :=
  fun hf => (identOk_spec h).kw (fund_keyword hf)

/-- The first token of a type specifier without qualifiers. -/
theorem name_start {g : Gram} (hg : gramOk g = true) {s s' : St} {ts : List Tk} {n : Str} (h : CName g s ts s' n) :
    ∃ t ts', ts = t :: ts' ∧ wordOk t.w = true ∧ t.w ∉ qualWords ∧ t.w ∉ storageWords ∧ t.w ≠ c%"typedef" ∧
      (t.w ∈ keywords g.cfg ∨ startsWith t.w c%"__" = false) := by
  have hkw : ∀ (t : Tk) (ts' : List Tk), ts = t :: ts' → t.w ∈ [c%"struct", c%"union", c%"enum"] →
      ∃ t ts', ts = t :: ts' ∧ wordOk t.w = true ∧ t.w ∉ qualWords ∧ t.w ∉ storageWords ∧ t.w ≠ c%"typedef" ∧
      (t.w ∈ keywords g.cfg ∨ startsWith t.w c%"__" = false) := by
    intro t ts' e ht
    obtain ⟨h1, h2, h3, h4, h5, h6⟩ := kw_facts hg ht
    exact ⟨t, ts', e, h1, h4, h5, h6, .inl h3⟩
  have hcw : ∀ u, compWord u ∈ [c%"struct", c%"union", c%"enum"] := by intro u; cases u <;> decide
  cases h with
  | fund _ t ts hu =>
    have h1 := hu t (by simp)
    have h2 := fund_not hg h1
    refine ⟨t, ts, rfl, keyword_wordOk hg (fund_keyword h1), fun e => h2 ?_, fun e => h2 ?_, fun e => h2 ?_,
      .inl (fund_keyword h1)⟩
    · exact List.mem_append_left _ (List.mem_append_right _ e)
    · exact List.mem_append_right _ (List.mem_cons_of_mem _ e)
    · rw [e]; exact List.mem_append_right _ (List.mem_cons_self ..)
  | ident _ t hi =>
    have hi := identOk_spec hi
    refine ⟨t, [], rfl, hi.word, fun e => hi.kw (qual_keyword _ e), fun e => hi.res (List.mem_cons_of_mem _ e),
      fun e => hi.res (by rw [e]; exact List.mem_cons_self ..), .inr hi.under⟩
  | comp _ _ u kw n _ h1 => exact hkw kw _ rfl (h1 ▸ hcw u)
  | compDef _ _ _ u kw l rb nm body _ _ _ h1 => exact hkw kw _ rfl (h1 ▸ hcw u)
  | enum _ _ kw n _ h1 => exact hkw kw _ rfl (by rw [h1]; decide)
  | enumDef _ _ kw l rb nm body oc _ _ _ h1 => exact hkw kw _ rfl (by rw [h1]; decide)

/-- The first qualifier is no storage class. -/
theorem quals_not {g : Gram} {t : Tk} {q : List Tk} {qs : List Str} (h : Quals g (t :: q) qs) :
    t.w ∉ storageWords ∧ t.w ≠ c%"typedef" := by
  have hq : ∀ w ∈ qualWords, w ∉ storageWords ∧ w ≠ c%"typedef" := by decide
  have ha : attrOk g t.w = true → t.w ∉ storageWords ∧ t.w ≠ c%"typedef" := by
    intro h
    obtain ⟨_, _, c, r, e, _⟩ := attrOk_spec h
    rw [e]
    simp [storageWords]
  cases h with
  | word _ _ _ h _ => exact hq _ h
  | attr _ _ _ h _ => exact ha h
  | call _ _ _ _ _ _ h _ _ _ _ => exact ha h

/-- The first token of a type specifier. -/
theorem type_start {g : Gram} (hg : gramOk g = true) {s s' : St} {ts : List Tk} {q : List Str × Str}
    (h : CSpec g s ts s' q) :
    ∃ t ts', ts = t :: ts' ∧ wordOk t.w = true ∧ t.w ∉ storageWords ∧ t.w ≠ c%"typedef" := by
  cases h with
  | mk _ _ q ts m qs n hq hn =>
    cases q with
    | nil =>
      obtain ⟨t, ts', rfl, h1, _, h2, h3, _⟩ := name_start hg hn
      exact ⟨t, ts' ++ m, rfl, h1, h2, h3⟩
    | cons t q => exact ⟨t, q ++ (ts ++ m), rfl, quals_head hq, quals_not hq⟩

/-- The parsers `r` read what is laid out from at most `m` tokens. -/
structure RecReads (g : Gram) (doc : Doc) (r : Rec) (m : Nat) : Prop where
  type : ∀ (s s' : St) (ts k : List Tk) (q : List Str × Str) (x : Pos), CSpec g s ts s' q → ts.length ≤ m →
    At doc x (ts ++ k) → AfterType g k → Joins g ts k → r.type s x = (s', some (q, advs x ts))
  decl : ∀ (s s' : St) (ts k : List Tk) (d : Decl) (x : Pos), CDeclr g s ts s' d → ts.length ≤ m →
    At doc x (ts ++ k) → AfterDecl k → r.decl s x = (s', some (d, advs x ts))
  abs : ∀ (s : St) (ts k : List Tk) (d : Decl) (x : Pos), CAbs g ts d → ts.length + 1 ≤ m →
    At doc x (ts ++ k) → AfterAbs k → r.abs s x = (s, some (d, advs x ts))
  declNo : ∀ (s : St) (ts k : List Tk) (d : Decl) (x : Pos), CAbs g ts d →
    At doc x (ts ++ k) → AfterAbs k → r.decl s x = (s, none)
  typeNo : ∀ (s : St) (t : Tk) (k : List Tk) (x : Pos), At doc x (t :: k) → symOk t = true →
    r.type s x = (s, none)

/-! ### Pointers, arrays -/

theorem ptrLoop_stop {cfg : Cfg} {doc : Doc} {x : Pos} {t : Tk} {k : List Tk} (h : At doc x (t :: k))
    (ht : t.hd ≠ '*') (n : Nat) : ptrLoop cfg n x = ([], x) := by
  cases n with
  | zero => rfl
  | succ n => simp only [ptrLoop, lit_no h ht]

theorem joins_left {g : Gram} {t d k : List Tk} (h : Joins g t d) (hd : d ≠ []) : Joins g t (d ++ k) := by
  cases d with
  | nil => exact absurd rfl hd
  | cons a d => exact fun x y h1 h2 h3 => h x y h1 h2 (by simpa using h3)

theorem joins_hd {g : Gram} {t k : List Tk} {b : Tk} (h : b.hd ≠ '(') : Joins g t (b :: k) := by
  intro x y _ _ h3 h4
  simp at h3
  subst h3
  cases hw : b.w with
  | nil => rw [hw] at h4; cases h4
  | cons c w =>
    rw [hw] at h4
    simp at h4
    exact h (by rw [hd_of hw]; exact h4)

theorem ptr_plain {g : Gram} {ts : List Tk} {ps : List (List Str)} (h : Ptrs g ts ps) {t : Tk} {k : List Tk}
    (ht : Plain g t k) : ∃ t' k', ts ++ t :: k = t' :: k' ∧ Plain g t' k' := by
  cases h with
  | nil => exact ⟨t, k, rfl, ht⟩
  | cons star q ts qs ps hs _ _ => exact ⟨star, _, rfl, .inl (symOk_of hs (by decide))⟩

/-- No parenthesis follows the qualifiers in front of pointers. -/
theorem ptr_joins {g : Gram} {q ts k : List Tk} {ps : List (List Str)} (h : Ptrs g ts ps) (hj : Joins g (q ++ ts) k) :
    Joins g q (ts ++ k) := by
  cases h with
  | nil => simpa using hj
  | cons star q ts qs ps hs _ _ => exact joins_hd (by rw [hd_of hs]; decide)

theorem ptrLoop_read {g : Gram} {doc : Doc} {t : Tk} {k : List Tk} (ht : t.hd ≠ '*') (hp : Plain g t k)
    {ts : List Tk} {ps : List (List Str)} (h : Ptrs g ts ps) :
    ∀ (x : Pos) (n : Nat), At doc x (ts ++ t :: k) → Joins g ts (t :: k) → ts.length ≤ n →
      ptrLoop g.cfg n x = (ps, advs x ts) := by
  induction h with
  | nil => intro x n h _ _; exact ptrLoop_stop h ht n
  | cons star q ts qs ps hs hq hts ih =>
    intro x n h hj hn
    obtain ⟨n, rfl⟩ : ∃ m, n = m + 1 := ⟨n - 1, by simp at hn; omega⟩
    simp only [List.cons_append, List.append_assoc] at h
    obtain ⟨t', k', e, hp'⟩ := ptr_plain hts hp
    have h1 := At.tail h
    have h2 := h1
    rw [e] at h2
    have hj1 : Joins g (q ++ ts) (t :: k) := joins_tail hj
    have hj2 := ptr_joins hts hj1
    rw [e] at hj2
    have hqual := qualP_read h2 hq hp' hj2
    have h3 := At.drop q h1
    have := ih (advs (adv x star) q) n h3 (joins_tails hj1) (by simp at hn; omega)
    simp only [ptrLoop, lit_yes h hs, hqual, this]
    simp [advs, advs_append]

/-- Qualifiers followed by pointers. -/
theorem qual_ptr_read {g : Gram} {doc : Doc} {t : Tk} {k q p : List Tk} {qs : List Str} {ps : List (List Str)} {x : Pos}
    (ht : t.hd ≠ '*') (hp : Plain g t k) (hq : Quals g q qs) (hps : Ptrs g p ps) (h : At doc x (q ++ (p ++ t :: k)))
    (hj : Joins g (q ++ p) (t :: k)) : qualP g.cfg x = (qs, advs x q) ∧
      ptrLoop g.cfg (advs x q).rest.length (advs x q) = (ps, advs (advs x q) p) := by
  obtain ⟨t', k', e, hp'⟩ := ptr_plain hps hp
  have h1 := At.drop q h
  have hl := At.length h1
  have h2 := h
  have hj2 := ptr_joins hps hj
  rw [e] at h2 hj2
  refine ⟨qualP_read h2 hq hp' hj2, ptrLoop_read ht hp hps _ _ h1 (joins_tails hj) ?_⟩
  simp at hl
  omega

theorem arrayLoop_succ (cfg : Cfg) (n : Nat) (x : Pos) : arrayLoop cfg (n + 1) x =
    match lit '[' x with
    | none => ([], x)
    | some y =>
      let e := (exprP cfg y).getD (c%"-1", y)
      match delim ']' e.2 with
      | none => ([], x)
      | some z => let r := arrayLoop cfg n z; (e.1 :: r.1, r.2) := rfl

theorem arrayLoop_stop {cfg : Cfg} {doc : Doc} {x : Pos} {t : Tk} {k : List Tk} (h : At doc x (t :: k))
    (ht : t.hd ≠ '[') (n : Nat) : arrayLoop cfg n x = ([], x) := by
  cases n with
  | zero => rfl
  | succ n => simp only [arrayLoop_succ, lit_no h ht]

theorem arrayLoop_read {g : Gram} {doc : Doc} {t : Tk} {k : List Tk} (ht : t.hd ≠ '[')
    {ts : List Tk} {es : List Str} (h : Arrays g ts es) :
    ∀ (x : Pos) (n : Nat), At doc x (ts ++ t :: k) → ts.length ≤ n → arrayLoop g.cfg n x = (es, advs x ts) := by
  induction h with
  | nil => intro x n h _; exact arrayLoop_stop h ht n
  | empty l r ts es hl hr hts ih =>
    intro x n h hn
    obtain ⟨n, rfl⟩ : ∃ m, n = m + 1 := ⟨n - 1, by simp at hn; omega⟩
    have h1 := At.tail h
    have h2 := At.tail h1
    have := ih _ n h2 (by simp at hn; omega)
    have hno : exprP g.cfg (adv x l) = none := exprP_no h1 (by simp [hd_of hr])
    simp only [arrayLoop_succ, lit_yes h hl, hno, Option.getD_none, delim_yes h1 hr (by decide), this]
    rfl
  | len l r e ts v es hl hr he hts ih =>
    intro x n h hn
    obtain ⟨n, rfl⟩ : ∃ m, n = m + 1 := ⟨n - 1, by simp at hn; omega⟩
    simp only [List.cons_append, List.append_assoc] at h
    have h1 := At.tail h
    have h2 := At.drop e h1
    have h3 := At.tail h2
    have hex := exprP_read he h1 (by simp [AfterExpr, endChars, hd_of hr])
    have := ih _ n h3 (by simp at hn; omega)
    simp only [arrayLoop_succ, lit_yes h hl, hex, Option.getD_some, delim_yes h2 hr (by decide), this]
    simp [advs, advs_append]

theorem arrays_start {g : Gram} {ts : List Tk} {es : List Str} (h : Arrays g ts es) :
    ts = [] ∨ ∃ t ts', ts = t :: ts' ∧ t.w = c%"[" := by
  cases h with
  | nil => exact .inl rfl
  | empty l r ts es hl => exact .inr ⟨l, _, rfl, hl⟩
  | len l r e ts v es hl => exact .inr ⟨l, _, rfl, hl⟩

/-! ### Abstract declarators -/

theorem abs_start {g : Gram} {a r k : List Tk} {ref : Bool} {es : List Str} (ha : Amp a ref)
    (hr : Arrays g r es) (hk : AfterAbs k) : ∃ t k', a ++ (r ++ k) = t :: k' ∧
      t.hd ∈ ['&', '[', ',', ')', ';', '=', ':', '}'] := by
  cases ha with
  | yes t ht => exact ⟨t, _, rfl, by simp [hd_of ht]⟩
  | no =>
    rcases arrays_start hr with rfl | ⟨t, ts', rfl, ht⟩
    · cases k with
      | nil => exact absurd hk (by simp [AfterAbs])
      | cons t k =>
        refine ⟨t, k, rfl, ?_⟩
        simp only [AfterAbs] at hk
        generalize t.hd = c at hk
        revert c
        decide
    · exact ⟨t, _, rfl, by simp [hd_of ht]⟩

theorem afterAbs_cons {k : List Tk} (hk : AfterAbs k) : ∃ t k', k = t :: k' ∧
    t.hd ∈ [',', ')', ';', '=', ':', '}'] := by
  cases k with
  | nil => exact absurd hk (by simp [AfterAbs])
  | cons t k => exact ⟨t, k, rfl, hk⟩

theorem afterDecl_cons {k : List Tk} (hk : AfterDecl k) : ∃ t k', k = t :: k' ∧
    t.hd ∈ [',', ')', ';', '=', '{', ':'] := by
  cases k with
  | nil => exact absurd hk (by simp [AfterDecl])
  | cons t k => exact ⟨t, k, rfl, hk⟩

theorem hd_ne {t : Tk} {l : List Char} {c : Char} (h : t.hd ∈ l) (hc : c ∉ l := by decide) : t.hd ≠ c :=
  fun e => hc (e ▸ h)

theorem symOk_mem {t : Tk} {l : List Char} (h : t.hd ∈ l) (hl : l.all (fun c => !isIdC c) = true := by decide) :
    symOk t = true := List.all_eq_true.mp hl _ h

theorem plain_sym {g : Gram} {t : Tk} {k : List Tk} (h : symOk t = true) : Plain g t k := .inl h

theorem argsP_none {g : Gram} {r : Rec} {dp : SP Decl} {doc : Doc} {x : Pos} {t : Tk} {k : List Tk}
    (h : At doc x (t :: k)) (ht : t.hd ≠ '(') (s : St) : argsP g r dp s x = (s, ((false, .nil), x)) := by
  unfold argsP
  rw [lit_no h ht]

/-- An abstract declarator is read. -/
theorem absP_read {g : Gram} {rc : Rec} {doc : Doc} {ts k : List Tk} {d : Decl} (hc : CAbs g ts d)
    (hk : AfterAbs k) (s : St) (x : Pos) (h : At doc x (ts ++ k)) : absP g rc s x = (s, some (d, advs x ts)) := by
  cases hc with
  | mk q p a r qs ps ref es hq hnm hp ha hr =>
    obtain ⟨t, k', e, ht⟩ := abs_start ha hr hk
    have hpl : Plain g t k' := plain_sym (symOk_mem ht)
    simp only [List.append_assoc] at h
    have h1 := h
    rw [e] at h1
    obtain ⟨r1, r2⟩ := qual_ptr_read (hd_ne ht) hpl hq hp h1 (joins_hd (hd_ne ht))
    have h2 := At.drop p (At.drop q h)
    obtain ⟨tk, kk, rfl, hkk⟩ := afterAbs_cons hk
    have harr : ∀ y, At doc y (r ++ tk :: kk) →
        argsP g rc rc.abs s y = (s, ((false, .nil), y)) ∧ arrayLoop g.cfg y.rest.length y = (es, advs y r) := by
      intro y hy
      constructor
      · rcases arrays_start hr with rfl | ⟨u, r', rfl, hu⟩
        · exact argsP_none hy (hd_ne hkk) s
        · exact argsP_none hy (by rw [hd_of hu]; decide) s
      · refine arrayLoop_read (hd_ne hkk) hr y _ hy ?_
        have := At.length hy
        simp at this
        omega
    unfold absP
    simp only [r1, r2]
    cases ha with
    | no =>
      have hlit : lit '&' (advs (advs x q) p) = none := by
        rcases arrays_start hr with rfl | ⟨u, r', rfl, hu⟩
        · exact lit_no h2 (hd_ne hkk)
        · exact lit_no h2 (by rw [hd_of hu]; decide)
      obtain ⟨a1, a2⟩ := harr _ h2
      simp only [hlit, Option.getD_none, a1, a2, advs_append, Option.isSome_none, List.nil_append]
    | yes u hu =>
      have h3 := At.tail h2
      obtain ⟨a1, a2⟩ := harr _ h3
      simp only [lit_yes h2 hu, Option.getD_some, a1, a2, advs_append, Option.isSome_some]
      rfl

theorem convP_no {doc : Doc} {x : Pos} {t : Tk} {k : List Tk} (h : At doc x (t :: k))
    (ht : symOk t = true ∨ (wordOk t.w = true ∧ k ≠ [] ∧ t.w ∉ [c%"__cdecl", c%"__stdcall"])) :
    convP x = (none, x) := by
  unfold convP
  rcases ht with ht | ⟨h1, h2, h3⟩
  · simp only [keyword_sym h ht c%"__cdecl" (by decide), keyword_sym h ht c%"__stdcall" (by decide)]
  · simp only [List.mem_cons, List.not_mem_nil, or_false, not_or] at h3
    simp only [keyword_word h h2 h1, if_neg h3.1, if_neg h3.2]

/-- There is no declarator where there is only an abstract one. -/
theorem declP_no {g : Gram} {rc : Rec} {doc : Doc} {ts k : List Tk} {d : Decl} (hc : CAbs g ts d)
    (hk : AfterAbs k) (s : St) (x : Pos) (h : At doc x (ts ++ k)) : declP g rc s x = (s, none) := by
  cases hc with
  | mk q p a r qs ps ref es hq hnm hp ha hr =>
    obtain ⟨t, k', e, ht⟩ := abs_start ha hr hk
    have hpl : Plain g t k' := plain_sym (symOk_mem ht)
    simp only [List.append_assoc] at h
    have h1 := h
    rw [e] at h1
    obtain ⟨r1, r2⟩ := qual_ptr_read (hd_ne ht) hpl hq hp h1 (joins_hd (hd_ne ht))
    have h2 := At.drop p (At.drop q h)
    have h3 := At.drop p (At.drop q h1)
    obtain ⟨tk, kk, rfl, hkk⟩ := afterAbs_cons hk
    have hconv : convP (advs x q) = (none, advs x q) := by
      obtain ⟨t', k'', e', hp'⟩ : ∃ t' k'', p ++ t :: k' = t' :: k'' ∧ symOk t' = true := by
        cases hp with
        | nil => exact ⟨t, k', rfl, symOk_mem ht⟩
        | cons star q ts qs ps hs _ _ => exact ⟨star, _, rfl, symOk_of hs (by decide)⟩
      have := At.drop q h1
      rw [e'] at this
      exact convP_no this (.inl hp')
    have hsym : ∀ y, At doc y (r ++ tk :: kk) → identP g.cfg y = none ∧ lit '(' y = none ∧ lit '&' y = none := by
      intro y hy
      rcases arrays_start hr with rfl | ⟨u, r', rfl, hu⟩
      · exact ⟨identP_sym hy (symOk_mem hkk) _,
          lit_no hy (hd_ne hkk), lit_no hy (hd_ne hkk)⟩
      · exact ⟨identP_sym hy (symOk_of hu (by decide)) _, lit_no hy (by rw [hd_of hu]; decide),
          lit_no hy (by rw [hd_of hu]; decide)⟩
    have hcore : declCoreP g rc s (advs (advs x q) p) = (s, none) := by
      unfold declCoreP declCoreP.refName
      cases ha with
      | no =>
        obtain ⟨b1, b2, b3⟩ := hsym _ h2
        simp only [b1, b2, b3, Option.map_none]
      | yes u hu =>
        obtain ⟨b1, b2, b3⟩ := hsym _ (At.tail h2)
        have h4 : At doc (advs (advs x q) p) (u :: (r ++ tk :: kk)) := h2
        simp only [lit_yes h4 hu, b1, Option.map_none, lit_no h4 (c := '(') (by rw [hd_of hu]; decide)]
    unfold declP
    simp only [r1, hconv, r2, hcore]

/-! ### Lists separated by commas -/

/-- The parser `p` reads a list separated by commas. -/
inductive SepReads {α : Type} (p : SP α) : St → Pos → St → Pos → List α → Prop
  | one (s s' : St) (x y : Pos) (a : α) : p s x = (s', some (a, y)) → lit ',' y = none → SepReads p s x s' y [a]
  | more (s s1 s' : St) (x y z u : Pos) (a : α) (as : List α) : p s x = (s1, some (a, y)) →
      lit ',' y = some z → z.rest.length < y.rest.length → y.rest.length ≤ x.rest.length →
      SepReads p s1 z s' u as → SepReads p s x s' u (a :: as)

theorem commaLoopS_read {α : Type} {p : SP α} {s s' : St} {x u : Pos} {as : List α} (h : SepReads p s x s' u as) :
    ∃ a as' s1 y, as = a :: as' ∧ p s x = (s1, some (a, y)) ∧
      ∀ n, x.rest.length ≤ n ∨ y.rest.length ≤ n → commaLoopS p n s1 y = (s', (as', u)) := by
  induction h with
  | one s s' x y a h1 h2 =>
    refine ⟨a, [], s', y, rfl, h1, fun n _ => ?_⟩
    cases n with
    | zero => rfl
    | succ n => simp only [commaLoopS, h2]
  | more s s1 s' x y z u a as h1 h2 h3 h4 _ ih =>
    obtain ⟨a', as', s2, y', rfl, h5, h6⟩ := ih
    refine ⟨a, a' :: as', s1, y, rfl, h1, fun n hn => ?_⟩
    obtain ⟨n, rfl⟩ : ∃ k, n = k + 1 := ⟨n - 1, by omega⟩
    have h7 := h6 n (.inl (by omega))
    simp only [commaLoopS, h2, h5, h7]

theorem delimitedS_read {α : Type} {p : SP α} {s s' : St} {x u : Pos} {as : List α} (h : SepReads p s x s' u as) :
    delimitedS p s x = (s', some (as, u)) := by
  obtain ⟨a, as', s1, y, rfl, h1, h2⟩ := commaLoopS_read h
  have h3 := h2 _ (.inr (Nat.le_refl _))
  simp only [delimitedS, h1, h3]

/-! ### Declarators -/

theorem conv_facts {w : Str} (h : w ∈ [c%"__cdecl", c%"__stdcall"]) :
    wordOk w = true ∧ w ∉ qualWords ∧ w ∈ [c%"struct", c%"enum", c%"union", c%"__stdcall", c%"__cdecl"] := by
  revert w
  decide

theorem convP_yes {doc : Doc} {x : Pos} {t : Tk} {k : List Tk} (h : At doc x (t :: k)) (hk : k ≠ [])
    (ht : t.w ∈ [c%"__cdecl", c%"__stdcall"]) : convP x = (some t.w, adv x t) := by
  have hw := (conv_facts ht).1
  unfold convP
  simp only [keyword_word h hk hw]
  simp only [List.mem_cons, List.not_mem_nil, or_false] at ht
  rcases ht with ht | ht
  · simp only [ht, if_true]
  · have : c%"__stdcall" ≠ c%"__cdecl" := by decide
    simp only [ht, if_true, if_neg this]

theorem ident_plain {g : Gram} {t : Tk} {k : List Tk} (h : identOk g t.w = true) (hk : k ≠ []) : Plain g t k := by
  have h := identOk_spec h
  exact .inr ⟨h.word, hk, fun e => h.kw (qual_keyword _ e), .inr h.under⟩

/-- The first token of the core of a declarator. -/
theorem core_start {g : Gram} {s s' : St} {co : List Tk} {ref : Bool} {core : Core} (h : CCore g s co s' ref core) :
    ∃ t co', co = t :: co' ∧ (t.w = c%"&" ∨ t.w = c%"(" ∨ identOk g t.w = true) := by
  cases h with
  | name _ a ref n ha hn =>
    cases ha with
    | no => exact ⟨n, [], rfl, .inr (.inr hn)⟩
    | yes t ht => exact ⟨t, [n], rfl, .inl ht⟩
  | center _ _ l r ts d hl hr _ => exact ⟨l, _, rfl, .inr (.inl hl)⟩

theorem core_tok {g : Gram} {t : Tk} {k : List Tk} (hk : k ≠ [])
    (h : t.w = c%"&" ∨ t.w = c%"(" ∨ identOk g t.w = true) : Plain g t k ∧ t.hd ≠ '*' ∧ AfterType g (t :: k) ∧
      (symOk t = true ∨ (wordOk t.w = true ∧ k ≠ [] ∧ t.w ∉ [c%"__cdecl", c%"__stdcall"])) := by
  rcases h with h | h | h
  · exact ⟨.inl (symOk_of h (by decide)), by rw [hd_of h]; decide, afterType_sym (by rw [hd_of h]; decide),
      .inl (symOk_of h (by decide))⟩
  · exact ⟨.inl (symOk_of h (by decide)), by rw [hd_of h]; decide, afterType_sym (by rw [hd_of h]; decide),
      .inl (symOk_of h (by decide))⟩
  · have hi := identOk_spec h
    exact ⟨ident_plain h hk, word_hd_ne hi.word (by decide),
      afterType_word hi.word hk (ident_not_fund h) hi.mods,
      .inr ⟨hi.word, hk, fun e => hi.kw (kw_keyword _ (conv_facts e).2.2)⟩⟩

theorem afterType_kw {g : Gram} (hg : gramOk g = true) {t : Tk} {k : List Tk} (hw : wordOk t.w = true) (hk : k ≠ [])
    (ht : t.w ∈ keywords g.cfg) (hn : t.w ∈ [c%"struct", c%"enum", c%"union", c%"__stdcall", c%"__cdecl"] ∨ t.w ∈ qualWords) :
    AfterType g (t :: k) := by
  refine afterType_word hw hk (fun e => fund_not hg e ?_) (fun e => (gramOk_mod hg e).2 ht)
  rcases hn with hn | hn
  · exact List.mem_append_left _ (List.mem_append_left _ hn)
  · exact List.mem_append_left _ (List.mem_append_right _ hn)

theorem afterType_qual {g : Gram} (hg : gramOk g = true) {t : Tk} {k : List Tk} (hk : k ≠ []) (ht : t.w ∈ qualWords) :
    AfterType g (t :: k) := afterType_kw hg (qual_word ht) hk (qual_keyword _ ht) (.inr ht)

/-- A type may end in front of qualifiers and pointers. -/
theorem afterType_qp {g : Gram} (hg : gramOk g = true) {q p k : List Tk} {qs : List Str} {ps : List (List Str)} (hq : Quals g q qs)
    (hn : NoMod g q) (hp : Ptrs g p ps) (hk : AfterType g k) : AfterType g (q ++ (p ++ k)) := by
  have hne := afterType_ne hk
  have attr : ∀ {t : Tk} {q : List Tk}, attrOk g t.w = true → NoMod g (t :: q) → AfterType g (t :: (q ++ (p ++ k))) := by
    intro t q ha hn
    obtain ⟨h1, h2, _⟩ := attrOk_spec ha
    exact afterType_word h1 (by simp [hne]) (fun e => h2 (fund_keyword e)) (hn t rfl)
  cases hq with
  | word t q _ h _ => exact afterType_qual hg (by simp [hne]) h
  | attr t q _ h _ => exact attr h hn
  | call t l r b q _ h _ _ _ _ => simpa using attr h hn
  | nil =>
    cases hp with
    | nil => exact hk
    | cons star q ts qs ps hs _ _ => exact afterType_sym (by rw [hd_of hs]; decide)

theorem afterType_decl {g : Gram} (hg : gramOk g = true) {s s' : St} {ts k : List Tk} {d : Decl}
    (h : CDeclr g s ts s' d) (hk : k ≠ []) : AfterType g (ts ++ k) := by
  cases h with
  | mk _ s1 _ q c p co ar a qs conv ps ref core h as es hq hnm hc hp hj hco har ha =>
    obtain ⟨t, co', rfl, ht⟩ := core_start hco
    have h1 := (core_tok (g := g) (t := t) (k := co' ++ (ar ++ (a ++ k))) (by simp [hk]) ht).2.2.1
    cases hc with
    | none => simpa using afterType_qp hg hq hnm hp h1
    | some u hu =>
      have h2 : AfterType g (u :: (p ++ (t :: co' ++ (ar ++ (a ++ k))))) :=
        afterType_kw hg (conv_facts hu).1 (by simp) (kw_keyword _ (conv_facts hu).2.2) (.inl (conv_facts hu).2.2)
      simpa using afterType_qp hg hq hnm .nil h2

theorem afterType_abs {g : Gram} (hg : gramOk g = true) {ts k : List Tk} {d : Decl} (h : CAbs g ts d)
    {t : Tk} {k' : List Tk} (e : k = t :: k') (ht : t.hd ∈ [',', ')', ';', '=', ':']) : AfterType g (ts ++ k) := by
  subst e
  cases h with
  | mk q p a r qs ps ref es hq hnm hp ha hr =>
    have h1 : AfterType g (a ++ (r ++ t :: k')) := by
      cases ha with
      | yes u hu => exact afterType_sym (by rw [hd_of hu]; decide)
      | no =>
        rcases arrays_start hr with rfl | ⟨u, r', rfl, hu⟩
        · have h0 : ∀ c ∈ [',', ')', ';', '=', ':'], c ∈ [',', ')', ';', '=', ':', '*', '&', '(', '['] := by decide
          exact afterType_sym (h0 _ ht)
        · exact afterType_sym (by rw [hd_of hu]; decide)
    simpa using afterType_qp hg hq hnm hp h1

theorem decl_nonempty {g : Gram} {s s' : St} {ts : List Tk} {d : Decl} (h : CDeclr g s ts s' d) : ts ≠ [] := by
  cases h with
  | mk _ s1 _ q c p co ar a qs conv ps ref core b as es hq hnm hc hp hj hco har ha =>
    obtain ⟨t, co', rfl, ht⟩ := core_start hco
    simp

theorem joins_abs {g : Gram} {ts k u : List Tk} {d : Decl} (h : CAbs g ts d)
    {t : Tk} {k' : List Tk} (e : k = t :: k') (ht : t.hd ∈ [',', ')', ';', '=', ':']) : Joins g u (ts ++ k) := by
  subst e
  have ht' : t.hd ≠ '(' := by intro e; rw [e] at ht; revert ht; decide
  cases h with
  | mk q p a r qs ps ref es hq hnm hp ha hr =>
    cases q with
    | cons t q => exact joins_hd (word_hd_ne (quals_head hq) (by decide))
    | nil =>
      cases hp with
      | cons star q ts qs ps hs _ _ => exact joins_hd (by rw [hd_of hs]; decide)
      | nil =>
        cases ha with
        | yes u hu => exact joins_hd (by rw [hd_of hu]; decide)
        | no =>
          rcases arrays_start hr with rfl | ⟨u, r', rfl, hu⟩
          · exact joins_hd ht'
          · exact joins_hd (by rw [hd_of hu]; decide)

theorem default_read {g : Gram} {doc : Doc} {x : Pos} {v k : List Tk} {val : Option Str} (hd : Default g v val)
    (h : At doc x (v ++ k)) {t : Tk} {k' : List Tk} (e : k = t :: k') (ht : t.hd ∈ [',', ')', '}']) :
    (lit '=' x).bind (exprP g.cfg) = val.map (fun e => (e, advs x v)) ∧ (val = none → v = []) := by
  subst e
  cases hd with
  | none =>
    refine ⟨?_, fun _ => rfl⟩
    rw [lit_no (by simpa using h) (hd_ne ht)]
    rfl
  | some eq e val he hv =>
    refine ⟨?_, fun h => by cases h⟩
    have h1 := At.tail h
    have : AfterExpr (t :: k') := by
      have h0 : ∀ c ∈ [',', ')', '}'], c ∈ endChars := by decide
      exact h0 _ ht
    rw [lit_yes h he, Option.bind_some, exprP_read hv h1 this]
    rfl

theorem defaultP_read {g : Gram} {doc : Doc} {x : Pos} {v k : List Tk} {val : Option Str} (hd : Default g v val)
    (h : At doc x (v ++ k)) {t : Tk} {k' : List Tk} (e : k = t :: k') (ht : t.hd ∈ [',', ')', '}']) :
    defaultP g.cfg x = (val, advs x v) := by
  obtain ⟨h1, h2⟩ := default_read hd h e ht
  unfold defaultP
  rw [h1]
  cases val with
  | none => rw [h2 rfl]; rfl
  | some e => rfl

/-- One parameter is read. -/
theorem paramP_read {g : Gram} (hg : gramOk g = true) {doc : Doc} {rc : Rec} {m : Nat} (hr : RecReads g doc rc m)
    {s s' : St} {ts k : List Tk} {tq : List Str} {tn : Str} {d : Decl} {val : Option Str} {x : Pos}
    (hp : CParam g s ts s' tq tn d val) (hm : ts.length ≤ m) (h : At doc x (ts ++ k)) {u : Tk} {k' : List Tk}
    (e : k = u :: k') (hu : u.hd ∈ [',', ')']) :
    paramP g rc (anyDecl rc) s x = (s', some (⟨tq, tn, d, val⟩, advs x ts)) := by
  subst e
  have hnext : ∀ {v : List Tk}, Default g v val → ∃ t k'', v ++ u :: k' = t :: k'' ∧ t.hd ∈ [',', ')', '='] := by
    intro v hv
    cases hv with
    | none => exact ⟨u, k', rfl, by revert hu; generalize u.hd = c; revert c; decide⟩
    | some eq e val he _ => exact ⟨eq, _, rfl, by simp [hd_of he]⟩
  have hu' : u.hd ∈ [',', ')', '}'] := by revert hu; generalize u.hd = c; revert c; decide
  cases hp with
  | named _ s1 _ t dk v _ _ _ _ h1 h2 h3 h4 =>
    simp only [List.append_assoc] at h
    simp only [List.length_append] at hm
    obtain ⟨w, kw, ew, hw⟩ := hnext h3
    have a1 := hr.type s s1 t _ _ x h1 (by omega) h (afterType_decl hg h2 (by simp)) (joins_left h4 (decl_nonempty h2))
    have a2 := hr.decl s1 s' dk _ d _ h2 (by omega) (At.drop t h) (by
      rw [ew]; revert hw; show _ → _ ∈ _; generalize w.hd = c; revert c; decide)
    have a3 := defaultP_read h3 (At.drop dk (At.drop t h)) rfl hu'
    simp only [paramP, a1, anyDecl, a2, a3, advs_append]
  | abs _ s1 t dk v _ _ _ _ h1 h2 h3 =>
    simp only [List.append_assoc] at h
    simp only [List.length_append] at hm
    obtain ⟨w, kw, ew, hw⟩ := hnext h3
    obtain ⟨t0, t', et, _⟩ := type_start hg h1
    have hlt : 1 ≤ t.length := by rw [et]; simp
    have a1 := hr.type s s' t _ _ x h1 (by omega) h (afterType_abs hg h2 ew (by
      revert hw; generalize w.hd = c; revert c; decide)) (joins_abs h2 ew (by
      revert hw; generalize w.hd = c; revert c; decide))
    have hab : AfterAbs (v ++ u :: k') := by
      rw [ew]; revert hw; show _ → _ ∈ _; generalize w.hd = c; revert c; decide
    have a2 := hr.declNo s' dk _ d _ h2 (At.drop t h) hab
    have a3 := hr.abs s' dk _ d _ h2 (by omega) (At.drop t h) hab
    have a4 := defaultP_read h3 (At.drop dk (At.drop t h)) rfl hu'
    simp only [paramP, a1, anyDecl, a2, a3, a4, advs_append]

theorem params_read {g : Gram} (hg : gramOk g = true) {doc : Doc} {rc : Rec} {m : Nat} (hr : RecReads g doc rc m)
    {r : Tk} {k : List Tk} (hrp : r.w = c%")") (N : Nat) : ∀ {s s' : St} {ts : List Tk} {as : ArgList} {x : Pos},
    CParams g s ts s' as → ts.length ≤ N → ts.length ≤ m → At doc x (ts ++ r :: k) →
    ∃ ps, SepReads (paramP g rc (anyDecl rc)) s x s' (advs x ts) ps ∧ toArgs ps = as := by
  induction N with
  | zero =>
    intro s s' ts as x hp hN
    cases hp with
    | one _ _ _ tq tn d val hp =>
      have : ts ≠ [] := by
        cases hp with
        | named _ s1 _ t dk v _ _ _ _ h1 h2 h3 => obtain ⟨t0, t', et, _⟩ := type_start hg h1; simp [et]
        | abs _ s1 t dk v _ _ _ _ h1 h2 h3 => obtain ⟨t0, t', et, _⟩ := type_start hg h1; simp [et]
      cases ts with
      | nil => exact absurd rfl this
      | cons => simp at hN
    | more _ s1 _ ts ts' c => simp at hN
  | succ N ih =>
    intro s s' ts as x hp hN hm h
    cases hp with
    | one _ _ _ tq tn d val hp =>
      have h1 := paramP_read hg hr hp hm h rfl (by simp [hd_of hrp])
      exact ⟨_, .one _ _ _ _ _ h1 (lit_no (At.drop ts h) (by rw [hd_of hrp]; decide)), rfl⟩
    | more _ s1 _ ts ts' c tq tn d val as hp hc hps =>
      simp only [List.append_assoc] at h
      simp only [List.length_append, List.length_cons] at hN hm
      have h1 := paramP_read hg hr hp (by omega) h rfl (by simp [hd_of hc])
      have h2 := At.drop ts h
      have h3 := lit_yes h2 hc
      have h4 := At.adv_length h2
      have h5 := At.advs_length ts h
      obtain ⟨ps, h6, h7⟩ := ih hps (by omega) (by omega) (At.tail h2)
      refine ⟨⟨tq, tn, d, val⟩ :: ps, .more _ s1 _ _ _ _ _ _ _ h1 h3 (by omega) (by omega) ?_, by simp [toArgs, h7]⟩
      simpa [advs_append, advs] using h6

/-- A parameter list is read. -/
theorem argsP_read {g : Gram} (hg : gramOk g = true) {doc : Doc} {rc : Rec} {m : Nat} (hr : RecReads g doc rc m)
    {s s' : St} {ts : List Tk} {b : Bool} {as : ArgList} {x : Pos} (ha : CArgs g s ts s' b as) (hm : ts.length ≤ m + 2)
    {t : Tk} {k : List Tk} (ht : t.hd ≠ '(') (h : At doc x (ts ++ t :: k)) :
    argsP g rc (anyDecl rc) s x = (s', ((b, as), advs x ts)) := by
  cases ha with
  | none => exact argsP_none h ht s
  | empty _ l r hl hrp =>
    have h1 := At.tail h
    have h2 : delimitedS (paramP g rc (anyDecl rc)) s (adv x l) = (s, none) := by
      simp only [delimitedS, paramP, hr.typeNo s r _ _ h1 (symOk_of hrp (by decide))]
    simp only [argsP, lit_yes h hl, h2, Option.getD_none, delim_yes h1 hrp (by decide)]
    rfl
  | list _ _ l r ps as hl hrp hps =>
    simp only [List.cons_append, List.append_assoc] at h
    simp only [List.length_append, List.length_cons] at hm
    have h1 := At.tail h
    obtain ⟨qs, h2, h3⟩ := params_read hg hr hrp ps.length hps (Nat.le_refl _) (by omega) h1
    have h4 := At.drop ps h1
    simp only [argsP, lit_yes h hl, delimitedS_read h2, Option.getD_some, delim_yes h4 hrp (by decide), h3]
    simp [advs, advs_append]

theorem coreP_decl {g : Gram} {doc : Doc} {rc : Rec} {m : Nat} (hr : RecReads g doc rc m) {s s' : St}
    {ts k : List Tk} {ref : Bool} {core : Core} {x : Pos} (hc : CCore g s ts s' ref core) (hm : ts.length ≤ m + 1)
    (hk : k ≠ []) (h : At doc x (ts ++ k)) : declCoreP g rc s x = (s', some ((ref, core), advs x ts)) := by
  cases hc with
  | name _ a ref n ha hn =>
    have hid : ∀ y, At doc y (n :: k) → identP g.cfg y = some (n.w, adv y n) := fun y hy => identP_ident hy hk hn
    cases ha with
    | no =>
      have h1 : At doc x (n :: k) := h
      have h2 : lit '&' x = none := lit_no h1 (word_hd_ne (identOk_spec hn).word (by decide))
      simp only [declCoreP, declCoreP.refName, h2, hid x h1, Option.map_some]
      rfl
    | yes t ht =>
      have h1 : At doc x (t :: n :: k) := h
      simp only [declCoreP, declCoreP.refName, lit_yes h1 ht, hid _ (At.tail h1), Option.map_some]
      rfl
  | center _ _ l r ts d hl hrp hd =>
    simp only [List.cons_append, List.append_assoc, List.nil_append] at h
    simp only [List.length_append, List.length_cons] at hm
    have h1 := At.tail h
    have h2 : lit '&' x = none := lit_no h (by rw [hd_of hl]; decide)
    have h3 : identP g.cfg x = none := identP_sym h (symOk_of hl (by decide)) _
    have h4 := hr.decl s s' ts _ d _ hd (by omega) h1 (by simp [AfterDecl, hd_of hrp])
    have h5 := At.drop ts h1
    simp only [declCoreP, declCoreP.refName, h2, h3, Option.map_none, lit_yes h hl, h4,
      delim_yes h5 hrp (by decide), Option.map_some]
    simp [advs, advs_append]

/-- A declarator is read. -/
theorem declP_read {g : Gram} (hg : gramOk g = true) {doc : Doc} {rc : Rec} {m : Nat} (hr : RecReads g doc rc m)
    {s s' : St} {ts k : List Tk} {d : Decl} {x : Pos} (hd : CDeclr g s ts s' d) (hm : ts.length ≤ m + 1)
    (h : At doc x (ts ++ k)) (hk : AfterDecl k) : declP g rc s x = (s', some (d, advs x ts)) := by
  obtain ⟨tk, kk, rfl, hkk⟩ := afterDecl_cons hk
  cases hd with
  | mk _ s1 _ q c p co ar a qs conv ps ref core b as es hq hnm hc hp hj hco har ha =>
    simp only [List.append_assoc] at h
    simp only [List.length_append] at hm
    obtain ⟨t, co', eco, ht⟩ := core_start hco
    have hlc : 1 ≤ co.length := by rw [eco]; simp
    have hne : co' ++ (ar ++ (a ++ tk :: kk)) ≠ [] := by simp
    obtain ⟨hpl, hst, _, hnc⟩ := core_tok hne ht
    -- the declarator after its pointers
    have hrest : ∀ y, At doc y (co ++ (ar ++ (a ++ tk :: kk))) →
        declCoreP g rc s y = (s1, some ((ref, core), advs y co)) ∧
        argsP g rc (anyDecl rc) s1 (advs y co) = (s', ((b, as), advs (advs y co) ar)) ∧
        arrayLoop g.cfg (advs (advs y co) ar).rest.length (advs (advs y co) ar) =
          (es, advs (advs (advs y co) ar) a) := by
      intro y hy
      have h1 := coreP_decl hr hco (by omega) (by simp) hy
      have h2 := At.drop co hy
      obtain ⟨t2, k2, e2, ht2⟩ : ∃ t2 k2, a ++ tk :: kk = t2 :: k2 ∧ t2.hd ≠ '(' := by
        rcases arrays_start ha with rfl | ⟨u, r', rfl, hu⟩
        · exact ⟨tk, kk, rfl, hd_ne hkk⟩
        · exact ⟨u, _, rfl, by rw [hd_of hu]; decide⟩
      have h3 := h2
      rw [e2] at h3
      have h4 := argsP_read hg hr har (by omega) ht2 h3
      have h5 := At.drop ar h2
      have hl := At.length h5
      simp only [List.length_append] at hl
      have h6 := arrayLoop_read (hd_ne hkk) ha _ (advs (advs y co) ar).rest.length h5 (by omega)
      exact ⟨h1, h4, h6⟩
    cases hc with
    | none =>
      have h1 : At doc x (q ++ (p ++ t :: (co' ++ (ar ++ (a ++ tk :: kk))))) := by
        rw [eco] at h; exact h
      have hj1 : Joins g (q ++ p) (t :: (co' ++ (ar ++ (a ++ tk :: kk)))) := by
        rw [eco] at hj
        exact joins_left (by simpa using hj) (by simp)
      obtain ⟨r1, r2⟩ := qual_ptr_read hst hpl hq hp h1 hj1
      have hconv : convP (advs x q) = (none, advs x q) := by
        have h2 := At.drop q h1
        cases hp with
        | nil => exact convP_no h2 hnc
        | cons star q ts qs ps hs _ _ => exact convP_no h2 (.inl (symOk_of hs (by decide)))
      obtain ⟨c1, c2, c3⟩ := hrest _ (At.drop p (At.drop q (by simpa using h)))
      simp only [declP, r1, hconv, r2, c1, c2, c3]
      simp [advs_append]
    | some u hu =>
      have h1 : At doc x (q ++ u :: (p ++ t :: (co' ++ (ar ++ (a ++ tk :: kk))))) := by
        rw [eco] at h; exact h
      obtain ⟨c1, c2, c3⟩ := conv_facts hu
      have r1 := qualP_read (g := g) h1 hq (.inr ⟨c1, by simp, c2, .inl (kw_keyword _ c3)⟩)
        (joins_hd (word_hd_ne c1 (by decide)))
      have h2 := At.drop q h1
      have r2 := convP_yes h2 (by simp) hu
      have h3 := At.tail h2
      have hl := At.length h3
      simp only [List.length_append] at hl
      have hj1 : Joins g p (t :: (co' ++ (ar ++ (a ++ tk :: kk)))) := by
        rw [eco] at hj
        exact joins_left (joins_tails (joins_tails hj)) (by simp)
      have r3 := ptrLoop_read hst hpl hp _ (adv (advs x q) u).rest.length h3 hj1 (by omega)
      have h4 := At.drop p h3
      obtain ⟨d1, d2, d3⟩ := hrest (advs (adv (advs x q) u) p) (by rw [eco]; exact h4)
      simp only [declP, r1, r2, r3, d1, d2, d3]
      simp [advs_append, advs]

end Pyclib
