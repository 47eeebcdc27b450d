import Verif.Proof.Macro
/-! Properties C23-C29: macro expansion. -/
namespace Pyclib
open Spec

variable (orc : Str → List Str → Option Str) (env : MEnv)

/-! ### Reading a line piece by piece -/

theorem text_cons (p : Piece) (ps : List Piece) : Spec.text (p :: ps) = p.text ++ Spec.text ps := rfl

theorem text_append (ps qs : List Piece) : Spec.text (ps ++ qs) = Spec.text ps ++ Spec.text qs := by
  simp [Spec.text]

theorem lineOk_head_sep {ps : List Piece} (h : LineOk ps) (sep : ∀ w' qs, ps ≠ .word w' :: qs) :
    ∀ c ∈ (Spec.text ps).head?, isWordC c = false := by
  cases h with
  | nil => simp [Spec.text]
  | word w ps => exact (sep w ps rfl).elim
  | chr c ps nw =>
    intro d hd
    simp [Spec.text, Piece.text] at hd; subst hd; exact nw
  | str s ps =>
    intro d hd
    simp [Spec.text, Piece.text] at hd; subst hd; rfl

theorem takeWhile_split {p : Char → Bool} {w r : Str} (hw : ∀ c ∈ w, p c = true)
    (hr : ∀ c ∈ r.head?, p c = false) : (w ++ r).takeWhile p = w ∧ (w ++ r).dropWhile p = r := by
  induction w with
  | nil =>
    cases r with
    | nil => simp
    | cons d r => simp [hr d (by simp)]
  | cons d w ih =>
    have := ih (fun c hc => hw c (by simp [hc]))
    simp [hw d (by simp), this]

theorem quote_not_word : isWordC '"' = false := rfl

theorem findTok_chr {c : Char} {s : Str} (nw : isWordC c = false) (q : c = '"' → '"' ∉ s) :
    findTok (c :: s) = (findTok s).push c := by
  by_cases hc : c = '"'
  · simp [findTok, hc, strLit_none (q hc)]
  · simp [findTok, hc, nw]

theorem findTok_wd {w r : Str} (ne : w ≠ []) (wd : ∀ c ∈ w, isWordC c = true)
    (hr : ∀ c ∈ r.head?, isWordC c = false) : findTok (w ++ r) = .word [] w r := by
  cases w with
  | nil => exact (ne rfl).elim
  | cons d w =>
    have hd := wd d (by simp)
    have hq : d ≠ '"' := by rintro rfl; simp [quote_not_word] at hd
    have := takeWhile_split (w := w) (r := r) (fun c hc => wd c (by simp [hc])) hr
    simp [findTok, hq, hd, this]

theorem findTok_lit {s r : Str} (nq : '"' ∉ s) (esc : s.getLast? ≠ some '\\') :
    findTok ('"' :: (s ++ '"' :: r)) = .str := by
  simp [findTok, strLit_content s r nq esc]

theorem expand_push {c : Char} {s : Str} (h : findTok (c :: s) = (findTok s).push c) :
    expandMacros orc env (c :: s) = c :: expandMacros orc env s := by
  cases hf : findTok s with
  | none => rw [hf] at h; rw [expand_none _ _ h, expand_none _ _ hf]
  | str =>
    rw [hf] at h
    have h2 := findTok_str hf
    rw [expand_str _ _ h, expand_str _ _ hf]
    obtain ⟨d, s', rfl⟩ : ∃ d s', s = d :: s' := by
      cases s with
      | nil => simp at h2
      | cons d s' => exact ⟨d, s', rfl⟩
    simp
  | word pre w rest =>
    rw [hf] at h
    have h' : findTok (c :: s) = .word (c :: pre) w rest := h
    cases hm : dget env.macros w with
    | some v => rw [expand_obj _ _ h' hm, expand_obj _ _ hf hm]; rfl
    | none =>
      cases hn : dget env.fnmacros w with
      | none => rw [expand_plain _ _ h' hm hn, expand_plain _ _ hf hm hn]; rfl
      | some defn =>
        rw [expand_fn _ _ h' hm hn, expand_fn _ _ hf hm hn]
        cases callResult orc env defn rest <;> rfl

/-- Text before the first word or quote is copied. -/
theorem expand_prefix {pre s : Str} (h : ∀ c ∈ pre, isWordC c = false ∧ c ≠ '"') :
    expandMacros orc env (pre ++ s) = pre ++ expandMacros orc env s := by
  induction pre with
  | nil => rfl
  | cons c pre ih =>
    have hc := h c (by simp)
    rw [List.cons_append, expand_push _ _ (findTok_chr hc.1 (fun e => (hc.2 e).elim)),
      ih (fun d hd => h d (by simp [hd]))]
    rfl

theorem expand_nil : expandMacros orc env [] = [] := expand_none _ _ rfl

/-- Expansion of a single character. -/
theorem expand_single (c : Char) :
    expandMacros orc env [c] = if isWordC c then (dget env.macros [c]).getD [c] else [c] := by
  cases hw : isWordC c with
  | false =>
    have : findTok [c] = .none := by rw [findTok_chr hw (by simp)]; rfl
    rw [expand_none _ _ this]; simp
  | true =>
    have hf : findTok [c] = .word [] [c] [] :=
      findTok_wd (w := [c]) (r := []) (by simp) (by simpa using hw) (by simp)
    cases hm : dget env.macros [c] with
    | some v => rw [expand_obj _ _ hf hm, expand_nil]; simp
    | none =>
      cases hn : dget env.fnmacros [c] with
      | none => rw [expand_plain _ _ hf hm hn, expand_nil]; simp
      | some defn => rw [expand_fn _ _ hf hm hn]; simp [callResult, callArgs, split1, expand_nil]

/-! ### C24 -/

/-- **C24**: expansion terminates on every line, whatever the tables (also self-referential ones): the
number of steps is bounded by the length of the line, so the loop cannot run out of any larger supply. -/
theorem C24_terminates (line : Str) (steps : Nat) (h : line.length < steps) :
    expandF orc env steps line = some (expandMacros orc env line) :=
  expandF_eq orc env line steps h

/-- **C24**: replacement text is copied to the output and the search goes on in the text *after* the
macro name (or call): nothing that was substituted is looked at again. -/
theorem C24_no_rescan (pre w rest : Str) (hp : ∀ c ∈ pre, isWordC c = false ∧ c ≠ '"')
    (hw : w ≠ []) (hc : ∀ c ∈ w, isWordC c = true) (hr : ∀ c ∈ rest.head?, isWordC c = false) :
    ∃ out stop, (∃ used, rest = used ++ stop) ∧
      expandMacros orc env (pre ++ w ++ rest) = pre ++ out ++ expandMacros orc env stop ∧
      (∀ v, dget env.macros w = some v → out = v ∧ stop = rest) := by
  have hf := findTok_wd hw hc hr
  have e := expand_prefix orc env (pre := pre) (s := w ++ rest) hp
  rw [List.append_assoc, e]
  cases hm : dget env.macros w with
  | some v =>
    exact ⟨v, rest, ⟨[], rfl⟩, by rw [expand_obj _ _ hf hm]; simp, by intro v' h; cases h; simp⟩
  | none =>
    cases hn : dget env.fnmacros w with
    | none => exact ⟨w, rest, ⟨[], rfl⟩, by rw [expand_plain _ _ hf hm hn]; simp, by simp⟩
    | some defn =>
      rw [expand_fn _ _ hf hm hn]
      cases hcr : callResult orc env defn rest with
      | none => exact ⟨w, rest, ⟨[], rfl⟩, by simp, by simp⟩
      | some q =>
        obtain ⟨t, stop⟩ := q
        refine ⟨t, stop, ?_, by simp, by simp⟩
        unfold callResult callArgs at hcr
        split at hcr
        · cases hcr
        · rename_i args stop' hca
          split at hca
          · cases hca
          · rename_i a r h1
            split at hca
            · cases hca
            · cases hca
              obtain ⟨_, _, h⟩ := Option.map_eq_some_iff.1 hcr
              cases h
              exact ⟨a ++ [')'], by rw [split1_length h1]; simp⟩

/-- Self-referential and mutually recursive macros. -/
example : expandMacros (fun _ _ => none)
    ⟨[(c%"A", c%"A + B"), (c%"B", c%"A")], [(c%"F", (c%"F({})", [0]))]⟩ c%"A B F(A)" =
      c%"A + B A F(A + B)" := by rfl

/-! ### C23 -/

theorem findTok_str_count {line : Str} (h : findTok line = .str) : 2 ≤ line.count '"' := by
  induction line with
  | nil => simp [findTok] at h
  | cons c s ih =>
    have hpush : (findTok s).push c = .str → 2 ≤ (c :: s).count '"' := by
      intro h
      cases hf : findTok s with
      | none => simp [hf, Found.push] at h
      | str => have := ih hf; rw [List.count_cons]; omega
      | word pre' w' rest' => simp [hf, Found.push] at h
    simp only [findTok] at h
    split at h
    · rename_i hq
      split at h
      · rename_i hs
        have := List.count_pos_iff.2 ((strLit_isSome s).1 hs)
        rw [List.count_cons, hq]; simp only [beq_self_eq_true, if_true]; omega
      · exact hpush h
    · split at h
      · cases h
      · exact hpush h

theorem WordFound.isWord {line pre w rest : Str} (h : WordFound line pre w rest) : IsWord line w :=
  ⟨pre, rest, h.eq, h.ne, h.wd, fun c hc => h.pre c (List.mem_of_getLast? hc), h.head⟩

theorem WordFound.rest {line pre w rest x : Str} (h : WordFound line pre w rest) (hx : IsWord rest x) :
    IsWord line x := by
  obtain ⟨a, b, he, hne, hw, ha, hb⟩ := hx
  refine ⟨pre ++ w ++ a, b, by rw [h.eq, he]; simp, hne, hw, ?_, hb⟩
  cases a with
  | nil =>
    exfalso
    cases x with
    | nil => exact hne rfl
    | cons c x =>
      have h1 := hw c (by simp)
      have h2 := h.head c (by simp [he])
      simp [h1] at h2
  | cons d a =>
    intro c hc
    apply ha
    rw [List.getLast?_append] at hc
    simpa [List.getLast?_cons] using hc

/-- **C23** (partial): a line none of whose words is a macro name is unchanged, provided it contains at
most one quotation mark or its last character alone is not the name of an object-like macro.  Without
the proviso the claim is false: `C23_counterexample`. -/
theorem C23_unchanged_partial (line : Str)
    (hw : ∀ w, IsWord line w → dget env.macros w = none ∧ dget env.fnmacros w = none)
    (hl : line.count '"' ≤ 1 ∨ ∀ c ∈ line.getLast?, dget env.macros [c] = none) :
    expandMacros orc env line = line := by
  obtain ⟨k, hk⟩ : ∃ k, line.length ≤ k := ⟨_, Nat.le_refl _⟩
  induction k using Nat.strongRecOn generalizing line with
  | ind k ih =>
    cases hf : findTok line with
    | none => exact expand_none _ _ hf
    | str =>
      rw [expand_str _ _ hf]
      rcases hl with hl | hl
      · have := findTok_str_count hf; omega
      · have h2 := findTok_str hf
        obtain ⟨l, c, rfl⟩ : ∃ l c, line = l ++ [c] := by
          rcases List.eq_nil_or_concat line with rfl | ⟨l, c, h⟩
          · simp at h2
          · exact ⟨l, c, by simpa using h⟩
        simp only [List.length_append, List.length_singleton, Nat.add_sub_cancel, List.drop_left,
          List.dropLast_concat]
        rw [expand_single]
        simp [hl c (by simp)]
    | word pre w rest =>
      have wf := findTok_word hf
      have hlt := wf.lt
      obtain ⟨h1, h2⟩ := hw w wf.isWord
      rw [expand_plain _ _ hf h1 h2, ih rest.length (by omega) rest
        (fun x hx => hw x (wf.rest hx)) ?_ (Nat.le_refl _)]
      · exact wf.eq.symm
      · rcases hl with hl | hl
        · left
          rw [wf.eq] at hl
          simp only [List.count_append] at hl; omega
        · right
          intro c hc
          apply hl
          rw [wf.eq, List.getLast?_append]
          simp [show rest.getLast? = some c from hc]

/-- The full claim C23 fails: in `"s" foo` no word is a macro name, yet the last letter is replaced. -/
theorem C23_counterexample :
    expandMacros orc ⟨[(c%"o", c%"1")], []⟩ c%"\"s\" foo" = c%"\"s\" fo1" := by rfl

/-- Non-trivial instance of the theorem: a line with a string and tables full of macros. -/
example : expandMacros (fun _ _ => none)
    ⟨[(c%"fo", c%"1"), (c%"s", c%"1")], [(c%"oo", (c%"{}", [0]))]⟩ c%"f(oof, \"s\", x);" =
      c%"f(oof, \"s\", x);" := by rfl

/-! ### C25 -/

/-- Value of a word as an object-like macro. -/
def objValue (w : Str) : Str := (dget env.macros w).getD w

/-- **C25** (full for lines without a string literal): each word that names an object-like macro is
replaced by its value, every other character is kept. -/
theorem C25_no_string (ps : List Piece) (ok : LineOk ps) (ns : NoStr ps)
    (obj : ∀ w, Piece.word w ∈ ps → dget env.macros w = none → dget env.fnmacros w = none) :
    expandMacros orc env (Spec.text ps) = replaceWords (objValue env) ps := by
  induction ok with
  | nil => exact expand_nil _ _
  | word w ps ne wd sep tl ih =>
    have ih' := ih (fun s hs => ns s (by simp [hs])) (fun w hw => obj w (by simp [hw]))
    have hf := findTok_wd ne wd (lineOk_head_sep tl sep)
    rw [text_cons]
    show expandMacros orc env (w ++ Spec.text ps) = objValue env w ++ replaceWords (objValue env) ps
    cases hm : dget env.macros w with
    | some v => rw [expand_obj _ _ hf hm, ih']; simp [objValue, hm]
    | none =>
      rw [expand_plain _ _ hf hm (obj w (by simp) hm), ih']; simp [objValue, hm]
  | chr c ps nw q tl ih =>
    have ih' := ih (fun s hs => ns s (by simp [hs])) (fun w hw => obj w (by simp [hw]))
    show expandMacros orc env (c :: Spec.text ps) = c :: replaceWords (objValue env) ps
    rw [expand_push _ _ (findTok_chr nw q), ih']
  | str s ps nq esc tl ih => exact (ns s (by simp)).elim

/-- What happens to the text after the first string literal of a line. -/
def afterString (s : Str) : Str :=
  s.dropLast ++ (match s.getLast? with
    | none => []
    | some c => if isWordC c then objValue env [c] else [c])

/-- **C25** (exact behaviour with string literals): words before the first literal are replaced, the
literal is kept, the text after it is copied, except that its last character alone is replaced if it
names a macro. -/
theorem C25_with_string (ps : List Piece) (s : Str) (qs : List Piece)
    (ok : LineOk (ps ++ .str s :: qs)) (ns : NoStr ps)
    (obj : ∀ w, Piece.word w ∈ ps → dget env.macros w = none → dget env.fnmacros w = none) :
    expandMacros orc env (Spec.text (ps ++ .str s :: qs)) =
      replaceWords (objValue env) ps ++ ('"' :: (s ++ ['"'])) ++ afterString env (Spec.text qs) := by
  induction ps with
  | nil =>
    cases ok with
    | str _ _ nq esc tl =>
      have hf : findTok ('"' :: (s ++ '"' :: Spec.text qs)) = .str := findTok_lit nq esc
      have ht : Spec.text ([] ++ .str s :: qs) = '"' :: (s ++ '"' :: Spec.text qs) := by
        simp [Spec.text, Piece.text]
      rw [ht, expand_str _ _ hf]
      rcases List.eq_nil_or_concat (Spec.text qs) with h | ⟨l, c, h⟩
      · rw [h]
        have e : '"' :: (s ++ ['"']) = ('"' :: s) ++ ['"'] := rfl
        rw [e, List.dropLast_concat]
        simp only [List.length_append, List.length_singleton, Nat.add_sub_cancel, List.drop_left]
        rw [expand_single]
        simp [quote_not_word, replaceWords, afterString]
      · have h' : Spec.text qs = l ++ [c] := by simpa using h
        rw [h']
        have e : '"' :: (s ++ '"' :: (l ++ [c])) = ('"' :: (s ++ '"' :: l)) ++ [c] := by simp
        rw [e, List.dropLast_concat]
        rw [List.length_append, List.length_singleton, Nat.add_sub_cancel, List.drop_left]
        rw [expand_single]
        simp [replaceWords, afterString, objValue]
  | cons p ps ih =>
    rw [List.cons_append] at ok
    cases ok with
    | word w _ ne wd sep tl =>
      have ih' := ih tl (fun s hs => ns s (by simp [hs])) (fun w hw => obj w (by simp [hw]))
      have hf := findTok_wd ne wd (lineOk_head_sep tl sep)
      show expandMacros orc env (w ++ Spec.text (ps ++ .str s :: qs)) =
        (objValue env w ++ replaceWords (objValue env) ps) ++ _ ++ _
      cases hm : dget env.macros w with
      | some v => rw [expand_obj _ _ hf hm, ih']; simp [objValue, hm]
      | none => rw [expand_plain _ _ hf hm (obj w (by simp) hm), ih']; simp [objValue, hm]
    | chr c _ nw q tl =>
      have ih' := ih tl (fun s hs => ns s (by simp [hs])) (fun w hw => obj w (by simp [hw]))
      show expandMacros orc env (c :: Spec.text (ps ++ .str s :: qs)) =
        (c :: replaceWords (objValue env) ps) ++ _ ++ _
      rw [expand_push _ _ (findTok_chr nw q), ih']; simp
    | str s' _ nq esc tl => exact (ns s' (by simp)).elim

/-- **C25** (partial): the claim for lines in which no word after a string literal names a macro and the
last character alone does not either. -/
theorem C25_string_partial (ps : List Piece) (s : Str) (qs : List Piece)
    (ok : LineOk (ps ++ .str s :: qs)) (ns : NoStr ps)
    (obj : ∀ w, Piece.word w ∈ ps → dget env.macros w = none → dget env.fnmacros w = none)
    (after : ∀ w, Piece.word w ∈ qs → dget env.macros w = none)
    (last : ∀ c ∈ (Spec.text qs).getLast?, dget env.macros [c] = none) :
    expandMacros orc env (Spec.text (ps ++ .str s :: qs)) =
      replaceWords (objValue env) (ps ++ .str s :: qs) := by
  rw [C25_with_string orc env ps s qs ok ns obj]
  have h1 : afterString env (Spec.text qs) = Spec.text qs := by
    unfold afterString
    rcases List.eq_nil_or_concat (Spec.text qs) with h | ⟨l, c, h⟩
    · simp [h]
    · have h' : Spec.text qs = l ++ [c] := by simpa using h
      rw [h'] at last ⊢
      simp [objValue, last c (by simp)]
  have h2 : ∀ qs : List Piece, (∀ w, Piece.word w ∈ qs → dget env.macros w = none) →
      replaceWords (objValue env) qs = Spec.text qs := by
    intro qs h
    induction qs with
    | nil => rfl
    | cons q qs ih =>
      have ih' := ih (fun w hw => h w (by simp [hw]))
      cases q with
      | word w =>
        show objValue env w ++ replaceWords (objValue env) qs = w ++ Spec.text qs
        rw [ih']; simp [objValue, h w (by simp)]
      | chr c => show c :: replaceWords (objValue env) qs = c :: Spec.text qs; rw [ih']
      | str s => show _ ++ replaceWords (objValue env) qs = _ ++ Spec.text qs; rw [ih']
  rw [h1]
  show _ = replaceWords (objValue env) (ps ++ .str s :: qs)
  have : replaceWords (objValue env) (ps ++ .str s :: qs) =
      replaceWords (objValue env) ps ++ ('"' :: (s ++ ['"']) ++ replaceWords (objValue env) qs) := by
    simp [replaceWords, Piece.text]
  rw [this, h2 qs after]; simp

/-- **C25**: every text with at most one quotation mark is the text of a line without string literals, so
`C25_no_string` applies to all of them. -/
theorem C25_covers (s : Str) (h : s.count '"' ≤ 1) : ∃ ps, LineOk ps ∧ NoStr ps ∧ Spec.text ps = s := by
  obtain ⟨k, hk⟩ : ∃ k, s.length ≤ k := ⟨_, Nat.le_refl _⟩
  induction k using Nat.strongRecOn generalizing s with
  | ind k ih =>
    cases s with
    | nil => exact ⟨[], .nil, by simp [NoStr], rfl⟩
    | cons c s =>
      by_cases hc : isWordC c = true
      · have e := takeWhile_append_dropWhile' isWordC s
        have hd := dropWhile_length isWordC s
        obtain ⟨ps, h1, h2, h3⟩ := ih (s.dropWhile isWordC).length (by simp at hk; omega)
          (s.dropWhile isWordC) (by
            rw [List.count_cons, ← e, List.count_append] at h; omega) (Nat.le_refl _)
        refine ⟨.word (c :: s.takeWhile isWordC) :: ps, ?_, ?_, ?_⟩
        · refine .word _ _ (by simp) ?_ ?_ h1
          · intro d hd
            rcases List.mem_cons.1 hd with rfl | hd
            · exact hc
            · exact takeWhile_true hd
          · rintro w' qs rfl
            cases h1 with
            | word _ _ ne wd =>
              cases w' with
              | nil => exact ne rfl
              | cons d w' =>
                have := dropWhile_head (p := isWordC) s d (by rw [← h3]; simp [Spec.text, Piece.text])
                simp [wd d (by simp)] at this
        · intro x hx
          simp at hx; exact h2 x hx
        · rw [text_cons, h3]; simp [Piece.text]
      · obtain ⟨ps, h1, h2, h3⟩ := ih s.length (by simp at hk; omega) s (by
          rw [List.count_cons] at h; omega) (Nat.le_refl _)
        refine ⟨.chr c :: ps, .chr c ps (by simpa using hc) ?_ h1, ?_, by rw [text_cons, h3]; rfl⟩
        · rintro rfl
          rw [h3]
          rw [List.count_cons] at h
          simp at h
          intro hm
          have := List.count_pos_iff.2 hm
          omega
        · intro x hx
          simp at hx; exact h2 x hx

/-- The full claim C25 fails: a word after a string literal is not replaced. -/
theorem C25_counterexample :
    expandMacros orc ⟨[(c%"N", c%"1")], []⟩ c%"\"s\", N);" = c%"\"s\", N);" := by rfl

example : expandMacros (fun _ _ => none) ⟨[(c%"N", c%"10"), (c%"M", c%"N")], []⟩ c%"int a[N], M = \"N M\";" =
    c%"int a[10], N = \"N M\";" := by rfl

/-! ### C27 -/

/-- **C27**: if the name of a function-like macro is not followed by a complete argument list, it is left
in place and processing continues after it. -/
theorem C27_incomplete (pre w rest : Str) (defn : Str × List Nat)
    (hp : ∀ c ∈ pre, isWordC c = false ∧ c ≠ '"') (hw : w ≠ []) (hc : ∀ c ∈ w, isWordC c = true)
    (hr : ∀ c ∈ rest.head?, isWordC c = false) (hm : dget env.macros w = none)
    (hf : dget env.fnmacros w = some defn)
    (bad : ')' ∉ rest ∨ ∃ a b, rest = a ++ ')' :: b ∧ ')' ∉ a ∧ '(' ∉ a) :
    expandMacros orc env (pre ++ w ++ rest) = pre ++ w ++ expandMacros orc env rest := by
  have h := findTok_wd hw hc hr
  rw [List.append_assoc, expand_prefix orc env hp, expand_fn _ _ h hm hf]
  have : callArgs rest = none := by
    unfold callArgs
    rcases bad with h | ⟨a, b, rfl, h1, h2⟩
    · rw [split1_none h]
    · rw [split1_app h1]
      simp only [split1_none h2]
  simp [callResult, this]

/-- **C27**: too few arguments: if the body uses a parameter for which there is no argument, the name is
left in place and processing continues after it. -/
theorem C27_missing (pre w rest : Str) (defn : Str × List Nat) (args : List Str) (stop : Str)
    (hp : ∀ c ∈ pre, isWordC c = false ∧ c ≠ '"') (hw : w ≠ []) (hc : ∀ c ∈ w, isWordC c = true)
    (hr : ∀ c ∈ rest.head?, isWordC c = false) (hm : dget env.macros w = none)
    (hf : dget env.fnmacros w = some defn) (ha : callArgs rest = some (args, stop))
    (miss : ∃ i ∈ defn.2, args.length ≤ i) :
    expandMacros orc env (pre ++ w ++ rest) = pre ++ w ++ expandMacros orc env rest := by
  have h := findTok_wd hw hc hr
  rw [List.append_assoc, expand_prefix orc env hp, expand_fn _ _ h hm hf]
  have : ∀ (as : List Str) (is : List Nat), (∃ i ∈ is, as.length ≤ i) → pickArgs as is = none := by
    intro as is
    induction is with
    | nil => rintro ⟨i, h, _⟩; simp at h
    | cons j js ih =>
      rintro ⟨i, h, hle⟩
      rcases List.mem_cons.1 h with rfl | h
      · simp [pickArgs, List.getElem?_eq_none hle]
      · simp [pickArgs, ih ⟨i, h, hle⟩]
  have hn : pickArgs (args.map (expandMacros orc env)) defn.2 = none := this _ _ (by simpa using miss)
  simp only [callResult, ha, hn]
  simp

/-- The claim C27 fails for a missing argument the body does not use. -/
theorem C27_counterexample :
    let env := defineMacro ⟨[], []⟩ c%"F" c%"(a,b) a"
    expandMacros orc env c%"F(1)" = c%"1" := by rfl

example :
    let env := defineMacro ⟨[], []⟩ c%"F" c%"(a,b) a+b"
    expandMacros (fun _ _ => none) env c%"x F(1) F F)" = c%"x F(1) F F)" := by rfl

/-! ### C26 -/

theorem indexOf_lt {x : Str} {ps : List Str} {i : Nat} (h : indexOf x ps = some i) : i < ps.length := by
  induction ps generalizing i with
  | nil => simp [indexOf] at h
  | cons p ps ih =>
    simp only [indexOf] at h
    split at h
    · cases h; simp
    · obtain ⟨j, hj, rfl⟩ := Option.map_eq_some_iff.1 h
      have := ih hj
      simp; omega

theorem indexOf_argOf (x : Str) (ps as : List Str) :
    argOf ps as x = (indexOf x ps).bind (fun i => as[i]?) := by
  induction ps generalizing as with
  | nil => cases as <;> rfl
  | cons p ps ih =>
    cases as with
    | nil => simp only [argOf, indexOf]; split <;> simp
    | cons a as =>
      simp only [argOf, indexOf]
      split
      · simp
      · rw [ih]; cases indexOf x ps <;> simp

/-- Template and indices of a body, piece by piece. -/
def tmpl (params : List Str) : List Piece → Str × List Nat
  | [] => ([], [])
  | .word w :: ps =>
    match indexOf w params with
    | some i => ('{' :: '}' :: (tmpl params ps).1, i :: (tmpl params ps).2)
    | none => (w ++ (tmpl params ps).1, (tmpl params ps).2)
  | p :: ps => (p.text ++ (tmpl params ps).1, (tmpl params ps).2)

theorem compileLoop_eq (params : List Str) (ps : List Piece) (ok : LineOk ps) (n : Nat)
    (hn : (Spec.text ps).length < n) : compileLoop params n (Spec.text ps) = tmpl params ps := by
  induction ok generalizing n with
  | nil => cases n with
    | zero => rfl
    | succ n => rfl
  | word w ps ne wd sep tl ih =>
    cases n with
    | zero => omega
    | succ n =>
      obtain ⟨c, w', rfl⟩ : ∃ c w', w = c :: w' := by
        cases w with
        | nil => exact (ne rfl).elim
        | cons c w' => exact ⟨c, w', rfl⟩
      have hl := ih n (by simp [Spec.text, Piece.text] at hn ⊢; omega)
      have hc := wd c (by simp)
      have hq : c ≠ '"' := by rintro rfl; simp [quote_not_word] at hc
      obtain ⟨e1, e2⟩ := takeWhile_split (w := w') (r := Spec.text ps) (p := isWordC)
        (fun d hd => wd d (by simp [hd])) (lineOk_head_sep tl sep)
      show compileLoop params (n + 1) (c :: (w' ++ Spec.text ps)) = _
      simp only [compileLoop, if_neg hq, hc, if_true, e1, e2, hl, tmpl]
      cases indexOf (c :: w') params <;> rfl
  | chr c ps nw q tl ih =>
    cases n with
    | zero => omega
    | succ n =>
      have hl := ih n (by simp [Spec.text, Piece.text] at hn ⊢; omega)
      show compileLoop params (n + 1) (c :: Spec.text ps) = _
      by_cases hc : c = '"'
      · subst hc
        simp only [compileLoop, if_true, strLit_none (q rfl), hl, tmpl, Piece.text]; rfl
      · simp only [compileLoop, if_neg hc, nw, hl, tmpl, Piece.text]; rfl
  | str s ps nq esc tl ih =>
    cases n with
    | zero => omega
    | succ n =>
      have hl := ih n (by simp [Spec.text, Piece.text] at hn ⊢; omega)
      have : Spec.text (.str s :: ps) = '"' :: (s ++ '"' :: Spec.text ps) := by
        simp [Spec.text, Piece.text]
      rw [this]
      simp only [compileLoop, if_true, strLit_content _ _ nq esc, hl, tmpl, Piece.text]

theorem fmtLoop_copy (a s : Str) (as : List Str) (h : ∀ c ∈ a, c ≠ '{' ∧ c ≠ '}') :
    fmtLoop (a ++ s) as = (fmtLoop s as).prepend a := by
  induction a with
  | nil => cases h : fmtLoop s as <;> simp [h, Fmt.prepend]
  | cons c a ih =>
    have hc := h c (by simp)
    rw [List.cons_append, fmtLoop, ih (fun d hd => h d (by simp [hd]))]
    · cases fmtLoop s as <;> simp [Fmt.prepend]
    all_goals (first | exact hc.1 | exact hc.2 | skip)
    all_goals (intros; first | exact hc.1 (by assumption) | exact hc.2 (by assumption))

theorem tmpl_format (params args : List Str) (ps : List Piece) (ok : LineOk ps)
    (nb : ∀ c ∈ Spec.text ps, c ≠ '{' ∧ c ≠ '}')
    (full : ∀ w i, Piece.word w ∈ ps → indexOf w params = some i → i < args.length) :
    ∃ as, pickArgs args (tmpl params ps).2 = some as ∧ fmtLoop (tmpl params ps).1 as =
      .ok (replaceWords (fun w => (argOf params args w).getD w) ps) := by
  induction ok with
  | nil => exact ⟨[], rfl, rfl⟩
  | word w ps ne wd sep tl ih =>
    obtain ⟨as, h1, h2⟩ := ih (fun c hc => nb c (by rw [text_cons]; exact List.mem_append_right _ hc))
      (fun w i hw => full w i (by simp [hw]))
    have hrw : replaceWords (fun w => (argOf params args w).getD w) (.word w :: ps) =
      (argOf params args w).getD w ++ replaceWords (fun w => (argOf params args w).getD w) ps := rfl
    rw [hrw, indexOf_argOf]
    cases hi : indexOf w params with
    | some i =>
      have hlt := full w i (by simp) hi
      refine ⟨args[i] :: as, ?_, ?_⟩
      · simp [tmpl, hi, pickArgs, h1, List.getElem?_eq_getElem hlt]
      · simp [tmpl, hi, fmtLoop, h2, Fmt.prepend, List.getElem?_eq_getElem hlt]
    | none =>
      refine ⟨as, by simp [tmpl, hi, h1], ?_⟩
      simp only [tmpl, hi]
      rw [fmtLoop_copy _ _ _ (fun c hc => nb c (by rw [text_cons]; exact List.mem_append_left _ hc)), h2]
      rfl
  | chr c ps nw q tl ih =>
    obtain ⟨as, h1, h2⟩ := ih (fun c hc => nb c (by rw [text_cons]; exact List.mem_append_right _ hc))
      (fun w i hw => full w i (by simp [hw]))
    refine ⟨as, h1, ?_⟩
    simp only [tmpl]
    rw [fmtLoop_copy _ _ _ (fun c hc => nb c (by rw [text_cons]; exact List.mem_append_left _ hc)), h2]
    rfl
  | str s ps nq esc tl ih =>
    obtain ⟨as, h1, h2⟩ := ih (fun c hc => nb c (by rw [text_cons]; exact List.mem_append_right _ hc))
      (fun w i hw => full w i (by simp [hw]))
    refine ⟨as, h1, ?_⟩
    simp only [tmpl]
    rw [fmtLoop_copy _ _ _ (fun c hc => nb c (by rw [text_cons]; exact List.mem_append_left _ hc)), h2]
    rfl

/-- **C26** (substitution): for a body without braces, compiling it and formatting it with the arguments
gives the body with every parameter replaced, all at once, by its argument; strings are kept. -/
theorem C26_substitute (params args : List Str) (body : List Piece) (ok : LineOk body)
    (nb : ∀ c ∈ Spec.text body, c ≠ '{' ∧ c ≠ '}') (len : params.length ≤ args.length) :
    (pickArgs args (compileFn (Spec.text body) params).2).bind
        (pyFormat orc (compileFn (Spec.text body) params).1) =
      some (replaceWords (fun w => (argOf params args w).getD w) body) := by
  have hc : compileFn (Spec.text body) params = tmpl params body :=
    compileLoop_eq params body ok _ (Nat.lt_succ_self _)
  rw [hc]
  obtain ⟨as, h1, h2⟩ := tmpl_format params args body ok nb
    (fun w i _ hi => by have := indexOf_lt hi; omega)
  simp [h1, pyFormat, h2]

theorem callArgs_call (gap : Str) (args : List Str) (stop : Str) (hg : ∀ c ∈ gap, c ≠ '(' ∧ c ≠ ')')
    (hne : args ≠ []) (ha : ∀ a ∈ args, ',' ∉ a ∧ ')' ∉ a) :
    callArgs (gap ++ '(' :: (joinC ',' args ++ ')' :: stop)) = some (args.map strip, stop) := by
  have h1 : ')' ∉ gap ++ '(' :: joinC ',' args := by
    simp only [List.mem_append, List.mem_cons, not_or]
    exact ⟨fun h => (hg _ h).2 rfl, by decide,
      fun h => (mem_joinC h).elim (fun e => absurd e (by decide)) (fun ⟨a, h1, h2⟩ => (ha a h1).2 h2)⟩
  have e : gap ++ '(' :: (joinC ',' args ++ ')' :: stop) = (gap ++ '(' :: joinC ',' args) ++ ')' :: stop := by
    simp
  rw [e, callArgs, split1_app h1]
  simp only []
  rw [split1_app (fun h => (hg _ h).1 rfl)]
  simp only [splitOnC_joinC hne (fun a h => (ha a h).1)]

/-- **C26** (partial): a call of a function-like macro whose body has no braces is replaced by the body
with each whole-word occurrence of a parameter (outside string literals) replaced, simultaneously, by
the expansion of the stripped argument; the rest of the line is expanded on its own.  Arguments contain
neither commas nor closing parentheses; missing: nested parentheses and strings in arguments, bodies
with braces (`C26_counterexample_*`). -/
theorem C26_call_partial (pre w gap stop : Str) (params args : List Str) (body : List Piece)
    (hp : ∀ c ∈ pre, isWordC c = false ∧ c ≠ '"') (hw : w ≠ []) (hc : ∀ c ∈ w, isWordC c = true)
    (hg : ∀ c ∈ gap, isSpaceC c = true)
    (hm : dget env.macros w = none)
    (hf : dget env.fnmacros w = some (compileFn (Spec.text body) params))
    (ok : LineOk body) (nb : ∀ c ∈ Spec.text body, c ≠ '{' ∧ c ≠ '}')
    (hne : args ≠ []) (ha : ∀ a ∈ args, ',' ∉ a ∧ ')' ∉ a) (len : params.length ≤ args.length) :
    expandMacros orc env (pre ++ w ++ (gap ++ '(' :: (joinC ',' args ++ ')' :: stop))) =
      pre ++ replaceWords
        (fun x => (argOf params (args.map fun a => expandMacros orc env (strip a)) x).getD x) body ++
        expandMacros orc env stop := by
  have hr : ∀ c ∈ (gap ++ '(' :: (joinC ',' args ++ ')' :: stop)).head?, isWordC c = false := by
    cases gap with
    | nil => intro c h; simp at h; subst h; rfl
    | cons d gap =>
      intro c h; simp at h; subst h
      exact space_not_word (hg _ (by simp))
  have h := findTok_wd hw hc hr
  rw [List.append_assoc, expand_prefix orc env hp, expand_fn _ _ h hm hf]
  have hga : ∀ c ∈ gap, c ≠ '(' ∧ c ≠ ')' := by
    intro c hc
    have := hg c hc
    exact ⟨by rintro rfl; revert this; decide, by rintro rfl; revert this; decide⟩
  simp only [callResult, callArgs_call gap args stop hga hne ha]
  rw [C26_substitute orc params _ body ok nb (by simpa using len)]
  simp [Function.comp_def]

/-- A `#define` of a function-like macro with its parameter list registers the compiled body. -/
theorem C26_define (name : Str) (params : List Str) (body : Str) (hp : params ≠ [])
    (hi : ∀ p ∈ params, IsIdent p) (nf : dget env.fnmacros (strip body) = none) :
    defineMacro env name ('(' :: (joinC ',' params ++ ')' :: body)) =
      { env with fnmacros := dset env.fnmacros name (compileFn (strip body) params) } := by
  have hsk : ∀ (c : Char) (r : Str), isIdentStart c = true → skipBlank (c :: r) = c :: r := by
    intro c r hc
    have h1 : c ≠ ' ' := by rintro rfl; revert hc; decide
    have h2 : c ≠ '\t' := by rintro rfl; revert hc; decide
    simp [skipBlank, h1, h2]
  have hid : ∀ (p r : Str), IsIdent p → (∀ c ∈ r.head?, isWordC c = false) →
      identTok (p ++ r) = some (p, r) := by
    rintro p r ⟨c, q, rfl, hc, hq⟩ hr
    have := takeWhile_split hq hr
    simp [identTok, hsk c _ hc, hc, this]
  have hmore : ∀ (ps : List Str) (p : Str) (n : Nat), (∀ x ∈ p :: ps, IsIdent x) → ps.length < n →
      moreParams n (ps.flatMap (fun x => ',' :: x) ++ ')' :: body) = some (ps, body) := by
    intro ps
    induction ps with
    | nil =>
      intro p n _ hn
      cases n with
      | zero => simp at hn
      | succ n => simp [moreParams, skipBlank]
    | cons x ps ih =>
      intro p n hi hn
      cases n with
      | zero => simp at hn
      | succ n =>
        have h1 := ih x n (fun y hy => hi y (List.mem_cons_of_mem _ hy)) (by simp at hn; omega)
        have h2 : identTok (x ++ (ps.flatMap (fun x => ',' :: x) ++ ')' :: body)) =
            some (x, ps.flatMap (fun x => ',' :: x) ++ ')' :: body) := by
          apply hid _ _ (hi x (by simp))
          intro c hc
          cases ps with
          | nil => simp at hc; subst hc; rfl
          | cons y ys => simp at hc; subst hc; rfl
        simp [moreParams, skipBlank, h2, h1]
  cases params with
  | nil => exact (hp rfl).elim
  | cons p ps =>
    have e : joinC ',' (p :: ps) = p ++ ps.flatMap (fun x => ',' :: x) := by
      clear hi hp
      induction ps generalizing p with
      | nil => simp [joinC]
      | cons x ps ih => simp [joinC, ih x]
    have h2 : identTok (p ++ (ps.flatMap (fun x => ',' :: x) ++ ')' :: body)) =
        some (p, ps.flatMap (fun x => ',' :: x) ++ ')' :: body) := by
      apply hid _ _ (hi p (by simp))
      intro c hc
      cases ps with
      | nil => simp at hc; subst hc; rfl
      | cons y ys => simp at hc; subst hc; rfl
    have hlen : ∀ ps : List Str, ps.length ≤ (ps.flatMap (fun x => ',' :: x)).length := by
      intro ps
      induction ps with
      | nil => simp
      | cons x ps ih => simp only [List.flatMap_cons, List.length_append, List.length_cons]; omega
    have h3 := hmore ps p ((ps.flatMap (fun x => ',' :: x) ++ ')' :: body).length + 1) hi (by
      have := hlen ps
      rw [List.length_append]; omega)
    have h4 : paramList ('(' :: (joinC ',' (p :: ps) ++ ')' :: body)) = some (p :: ps, body) := by
      rw [e, List.append_assoc]
      simp only [paramList, skipBlank]
      rw [List.dropWhile_cons_of_neg (by decide)]
      simp only [h2, h3]; rfl
    simp [defineMacro, parseDefine, h4, nf]

/-- The claim C26 fails for a body with braces: the call is left in place, or the argument is
lost. -/
theorem C26_counterexample_braces :
    let env := defineMacro (defineMacro ⟨[], []⟩ c%"INIT" c%"(x) {x, 0}") c%"G" c%"(x) {x}"
    expandMacros orc env c%"INIT(1)" = c%"INIT(1)" ∧
      expandMacros orc env c%"G(1)" = c%"{}" := by
  constructor <;> rfl

/-- The claim C26 fails for nested parentheses in arguments. -/
theorem C26_counterexample_nested :
    let env := defineMacro ⟨[], []⟩ c%"F" c%"(x) x+1"
    expandMacros orc env c%"F(F(1))" = c%"F(1+1)" := by rfl

/-- Text between the macro name and the parenthesis is lost. -/
theorem C26_counterexample_gap :
    let env := defineMacro ⟨[], []⟩ c%"F" c%"(x) x+1"
    expandMacros orc env c%"F + (2)" = c%"2+1" := by rfl

/-- Simultaneous substitution: swapped parameter names in the arguments are not substituted again. -/
example :
    let env := defineMacro ⟨[(c%"N", c%"10")], []⟩ c%"F" c%"(x,y) x*y + \"x\" + xy"
    expandMacros (fun _ _ => none) env c%"a = F( y, x+N ); N" = c%"a = y*x+10 + \"x\" + xy; 10" := by rfl

/-! ### C28, C29 -/

/-- `#define name rest` and `#undef name` in a live region: the rest of a definition is expanded first
(c_parser.py:906-907), then the definition is recorded. -/
def macroStep (env : MEnv) : MacroOp → MEnv
  | .define n r => defineMacro env n (expandMacros orc env r)
  | .undef n => undefMacro env n

/-- A sequence of `#define` and `#undef`. -/
def macroRun (env : MEnv) (ops : List MacroOp) : MEnv := ops.foldl (macroStep orc) env

theorem macroStep_other (op : MacroOp) (n : Str) (h : op.name ≠ n) :
    dget (macroStep orc env op).macros n = dget env.macros n ∧
      dget (macroStep orc env op).fnmacros n = dget env.fnmacros n := by
  cases op with
  | define m r =>
    have hm : m ≠ n := h
    simp only [macroStep, defineMacro]
    split
    · simp [dget_dset, hm]
    · split <;> simp [dget_dset, hm]
  | undef m =>
    have hm : m ≠ n := h
    simp [macroStep, undefMacro, dget_ddel, hm]

theorem macroRun_other (ops : List MacroOp) (n : Str) (h : ∀ op ∈ ops, op.name ≠ n) :
    dget (macroRun orc env ops).macros n = dget env.macros n ∧
      dget (macroRun orc env ops).fnmacros n = dget env.fnmacros n := by
  induction ops generalizing env with
  | nil => simp [macroRun]
  | cons op ops ih =>
    have h1 := macroStep_other orc env op n (h op (by simp))
    have h2 := ih (macroStep orc env op) (fun o ho => h o (by simp [ho]))
    exact ⟨h2.1.trans h1.1, h2.2.trans h1.2⟩

/-- **C28**: the value of an object-like macro is what its body expands to at the point of definition
(without surrounding white space), whatever is defined, redefined or undefined later under other names. -/
theorem C28_fixed (name rest : Str) (ops : List MacroOp) (h : ∀ op ∈ ops, op.name ≠ name)
    (obj : paramList (expandMacros orc env rest) = none)
    (nf : dget env.fnmacros (strip (expandMacros orc env rest)) = none) :
    dget (macroRun orc env (.define name rest :: ops)).macros name =
      some (strip (expandMacros orc env rest)) := by
  have := (macroRun_other orc (macroStep orc env (.define name rest)) ops name h).1
  show dget (macroRun orc (macroStep orc env (.define name rest)) ops).macros name = _
  rw [this]
  simp [macroStep, defineMacro, parseDefine, obj, nf]

/-- **C28** for function-like macros: parameters and body are compiled at the point of definition from the
text expanded at that point; later events under other names never change them. -/
theorem C28_fixed_fn (name rest : Str) (ops : List MacroOp) (h : ∀ op ∈ ops, op.name ≠ name)
    (ps : List Str) (body : Str) (fn : paramList (expandMacros orc env rest) = some (ps, body))
    (nf : dget env.fnmacros (strip body) = none) :
    dget (macroRun orc env (.define name rest :: ops)).fnmacros name =
      some (compileFn (strip body) ps) := by
  have := (macroRun_other orc (macroStep orc env (.define name rest)) ops name h).2
  show dget (macroRun orc (macroStep orc env (.define name rest)) ops).fnmacros name = _
  rw [this]
  simp [macroStep, defineMacro, parseDefine, fn, nf]

/-- **C28** for a macro whose value is the name of a function-like macro: it becomes a copy of it, and
later changes of the original do not affect the copy. -/
theorem C28_copy (name rest : Str) (ops : List MacroOp) (h : ∀ op ∈ ops, op.name ≠ name)
    (f : Str × List Nat)
    (nf : dget env.fnmacros (parseDefine (expandMacros orc env rest)).2 = some f) :
    dget (macroRun orc env (.define name rest :: ops)).fnmacros name = some f := by
  have := (macroRun_other orc (macroStep orc env (.define name rest)) ops name h).2
  show dget (macroRun orc (macroStep orc env (.define name rest)) ops).fnmacros name = _
  rw [this]
  simp [macroStep, defineMacro, nf]

/-- `B` keeps the value that `A` had when `B` was defined. -/
example :
    let env := macroRun (fun _ _ => none) ⟨[], []⟩
      [.define c%"A" c%" 1", .define c%"B" c%" (A + 2) ", .define c%"A" c%" 5", .undef c%"A"]
    expandMacros (fun _ _ => none) env c%"A B" = c%"A (1 + 2)" := by rfl

/-- **C29** (partial): after `#undef n`, as long as `n` is not defined again, `defined n` is false and `n`
is not expanded, if `n` was not a function-like macro.  Missing: function-like macros, for which the
claim is false (`C29_counterexample`). -/
theorem C29_undef_partial (n : Str) (ops : List MacroOp)
    (h : ∀ op ∈ ops, ∀ r, op ≠ .define n r) (nf : dget env.fnmacros n = none) :
    isDefined (macroRun orc env (.undef n :: ops)) n = false ∧
      ∀ pre rest, (∀ c ∈ pre, isWordC c = false ∧ c ≠ '"') → n ≠ [] → (∀ c ∈ n, isWordC c = true) →
        (∀ c ∈ rest.head?, isWordC c = false) →
        expandMacros orc (macroRun orc env (.undef n :: ops)) (pre ++ n ++ rest) =
          pre ++ n ++ expandMacros orc (macroRun orc env (.undef n :: ops)) rest := by
  have key : ∀ (ops : List MacroOp) (env : MEnv), (∀ op ∈ ops, ∀ r, op ≠ .define n r) →
      dget env.macros n = none → dget env.fnmacros n = none →
      dget (macroRun orc env ops).macros n = none ∧ dget (macroRun orc env ops).fnmacros n = none := by
    intro ops
    induction ops with
    | nil => intro env _ h1 h2; exact ⟨h1, h2⟩
    | cons op ops ih =>
      intro env h h1 h2
      apply ih (macroStep orc env op) (fun o ho => h o (by simp [ho]))
      · by_cases hn : op.name = n
        · cases op with
          | define m r => exact (h (.define m r) (by simp) r (by rw [show m = n from hn])).elim
          | undef m => simp [macroStep, undefMacro, dget_ddel, h1]
        · rw [(macroStep_other orc env op n hn).1, h1]
      · by_cases hn : op.name = n
        · cases op with
          | define m r => exact (h (.define m r) (by simp) r (by rw [show m = n from hn])).elim
          | undef m => exact h2
        · rw [(macroStep_other orc env op n hn).2, h2]
  obtain ⟨h1, h2⟩ : dget (macroRun orc env (.undef n :: ops)).macros n = none ∧
      dget (macroRun orc env (.undef n :: ops)).fnmacros n = none :=
    key ops (macroStep orc env (.undef n)) h (by simp [macroStep, undefMacro]) nf
  refine ⟨by simp [isDefined, dhas]; exact ⟨h1, h2⟩, ?_⟩
  intro pre rest hp hn hc hr
  rw [List.append_assoc, expand_prefix _ _ hp, expand_plain _ _ (findTok_wd hn hc hr) h1 h2]
  simp

/-- **C29**: removing a macro that is not defined has no effect. -/
theorem C29_undef_missing (n : Str) (h : dget env.macros n = none) : undefMacro env n = env := by
  have : ∀ d : Dict Str Str, dget d n = none → ddel d n = d := by
    intro d hd
    have := dget_none_iff.1 hd
    apply List.filter_eq_self.2
    intro p hp
    simp only [ne_eq, decide_not, Bool.not_eq_eq_eq_not, Bool.not_true, decide_eq_false_iff_not]
    rintro rfl
    exact this (List.mem_map.2 ⟨p, hp, rfl⟩)
  simp [undefMacro, this _ h]

/-- The full claim C29 fails: a function-like macro is still defined, and expanded, after `#undef`. -/
theorem C29_counterexample :
    let env := macroRun orc ⟨[], []⟩ [.define c%"F" c%"(x) x+1", .undef c%"F"]
    isDefined env c%"F" = true ∧ expandMacros orc env c%"F(1)" = c%"1+1" := by
  constructor <;> rfl

example :
    let env := macroRun (fun _ _ => none) ⟨[], []⟩
      [.define c%"A" c%" 1", .undef c%"A", .define c%"B" c%" A", .undef c%"A"]
    isDefined env c%"A" = false ∧ expandMacros (fun _ _ => none) env c%"A B" = c%"A A" := by
  constructor <;> rfl

end Pyclib
