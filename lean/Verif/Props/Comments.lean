import Verif.Model.Comments
/-!
# C15: comment removal
-/
namespace Pyclib

/-! ## Specification -/

/-- Items of a literal with quote `q`. -/
inductive Spec.Item where
  /-- an ordinary character -/
  | chr (c : Char)
  /-- a backslash escape -/
  | esc (c : Char)
  /-- `\x` and a hexadecimal digit (more digits are ordinary characters) -/
  | hex (c : Char)

/-- Text of an item. -/
def Spec.Item.text : Spec.Item → Str
  | .chr c => [c]
  | .esc c => ['\\', c]
  | .hex c => ['\\', 'x', c]

/-- Well formed items. -/
def Spec.Item.Ok (q : Char) : Spec.Item → Prop
  | .chr c => c ≠ q ∧ c ≠ '\n' ∧ c ≠ '\r' ∧ c ≠ '\\'
  | .esc c => c ≠ 'x'
  | .hex c => isHexC c = true

/-- Text of a literal. -/
def Spec.litText (q : Char) (its : List Spec.Item) : Str := q :: (its.flatMap Spec.Item.text ++ [q])

/-- Pieces of a C text. -/
inductive Spec.Seg where
  | code (s : Str)
  /-- one or more adjacent literals with the same quote -/
  | lits (q : Char) (first : List Spec.Item) (more : List (List Spec.Item))
  | block (s : Str)
  | line (s : Str)

/-- Text of a piece. -/
def Spec.Seg.text : Spec.Seg → Str
  | .code s => s
  | .lits q i is => Spec.litText q i ++ is.flatMap (Spec.litText q)
  | .block s => '/' :: '*' :: (s ++ ['*', '/'])
  | .line s => '/' :: '/' :: s

/-- What must remain of a piece. -/
def Spec.Seg.kept : Spec.Seg → Str
  | .block _ | .line _ => []
  | s => s.text

/-- Code: no quotes, no comment openers. -/
def Spec.CodeOk : Str → Prop
  | [] => True
  | [c] => c ≠ '"' ∧ c ≠ '\''
  | c :: d :: s => c ≠ '"' ∧ c ≠ '\'' ∧ ¬ (c = '/' ∧ (d = '/' ∨ d = '*')) ∧ Spec.CodeOk (d :: s)

/-- Well formed pieces. -/
def Spec.Seg.Ok : Spec.Seg → Prop
  | .code s => Spec.CodeOk s
  | .lits q i is => (q = '"' ∨ q = '\'') ∧ (∀ x ∈ i, x.Ok q) ∧ ∀ l ∈ is, ∀ x ∈ l, x.Ok q
  | .block s => ∀ a b, s ++ ['*'] ≠ a ++ '*' :: '/' :: b
  | .line s => '\n' ∉ s

/-- Conditions between a piece and the text after it: a line comment extends to the end of the line,
code does not form a comment opener with what follows, and a literal is not directly followed by
another one with the same quote (such literals are one piece). -/
def Spec.Seg.Fits (r : Str) : Spec.Seg → Prop
  | .code s => s.getLast? = some '/' → r.head? ≠ some '/' ∧ r.head? ≠ some '*'
  | .lits q _ _ => r.head? ≠ some q
  | .block _ => True
  | .line _ => ∀ c ∈ r.head?, c = '\n'

/-- Well formed sequences of pieces. -/
def Spec.SegsOk : List Spec.Seg → Prop
  | [] => True
  | s :: ss => s.Ok ∧ s.Fits (ss.flatMap Spec.Seg.text) ∧ Spec.SegsOk ss

/-! ## Proofs -/

theorem qBody_cons2 (q c d : Char) (s : Str) : qBody q (c :: d :: s) =
    if c = '\\' then
      if d = 'x' then
        match s with
        | h :: s' =>
          if isHexC h then (c :: d :: h :: (qBody q s').1, (qBody q s').2) else ([], c :: d :: h :: s')
        | [] => ([], [c, d])
      else (c :: d :: (qBody q s).1, (qBody q s).2)
    else if c = q then
      if d = q then (c :: d :: (qBody q s).1, (qBody q s).2) else ([], c :: d :: s)
    else if c = '\n' || c = '\r' then ([], c :: d :: s)
    else (c :: (qBody q (d :: s)).1, (qBody q (d :: s)).2) := by
  rw [qBody.eq_def]
  cases s <;> rfl

theorem qBody_item (q : Char) (hq : q ≠ '\\') (it : Spec.Item) (h : it.Ok q) (s : Str) (hs : s ≠ []) :
    qBody q (it.text ++ s) = (it.text ++ (qBody q s).1, (qBody q s).2) := by
  cases it with
  | chr c =>
    obtain ⟨h1, h2, h3, h4⟩ := h
    cases s with
    | nil => exact (hs rfl).elim
    | cons d s =>
      simp only [Spec.Item.text, List.cons_append, List.nil_append]
      rw [qBody_cons2]
      simp [h1, h2, h3, h4]
  | esc c =>
    simp only [Spec.Item.text, List.cons_append, List.nil_append]
    have hc : c ≠ 'x' := h
    rw [qBody_cons2]
    simp [hc]
  | hex c =>
    simp only [Spec.Item.text, List.cons_append, List.nil_append]
    have hc : isHexC c = true := h
    rw [qBody_cons2]
    simp [hc]

theorem qBody_items (q : Char) (hq : q ≠ '\\') (its : List Spec.Item) (h : ∀ x ∈ its, x.Ok q) (s : Str)
    (hs : s ≠ []) : qBody q (its.flatMap Spec.Item.text ++ s) =
      (its.flatMap Spec.Item.text ++ (qBody q s).1, (qBody q s).2) := by
  induction its with
  | nil => simp
  | cons it its ih =>
    have h1 := ih (fun x hx => h x (by simp [hx]))
    rw [List.flatMap_cons, List.append_assoc,
      qBody_item q hq it (h it (by simp)) _ (by simp [hs]), h1]
    simp

theorem qBody_close (q : Char) (hq : q ≠ '\\') (r : Str) (hr : r.head? ≠ some q) :
    qBody q (q :: r) = ([], q :: r) := by
  cases r with
  | nil => simp [qBody]
  | cons c r =>
    have : c ≠ q := by simpa using hr
    rw [qBody_cons2]; simp [hq, this]

/-- After the opening quote, adjacent literals are matched as a whole. -/
theorem qBody_lits (q : Char) (hq : q ≠ '\\') (more : List (List Spec.Item)) : ∀ (first : List Spec.Item)
    (r : Str), (∀ x ∈ first, x.Ok q) → (∀ l ∈ more, ∀ x ∈ l, x.Ok q) → r.head? ≠ some q →
    ∃ b, qBody q (first.flatMap Spec.Item.text ++ [q] ++ more.flatMap (Spec.litText q) ++ r) = (b, q :: r) ∧
      b ++ [q] = first.flatMap Spec.Item.text ++ [q] ++ more.flatMap (Spec.litText q) := by
  induction more with
  | nil =>
    intro first r h1 _ hr
    refine ⟨first.flatMap Spec.Item.text, ?_, by simp⟩
    simp only [List.flatMap_nil, List.append_nil, List.append_assoc, List.cons_append, List.nil_append]
    rw [qBody_items q hq first h1 _ (by simp), qBody_close q hq r hr]
    simp
  | cons m more ih =>
    intro first r h1 h2 hr
    obtain ⟨b, hb1, hb2⟩ := ih m r (h2 m (by simp)) (fun l hl => h2 l (by simp [hl])) hr
    refine ⟨first.flatMap Spec.Item.text ++ q :: q :: b, ?_, ?_⟩
    · have e : first.flatMap Spec.Item.text ++ [q] ++ (m :: more).flatMap (Spec.litText q) ++ r
          = first.flatMap Spec.Item.text ++
            (q :: q :: (m.flatMap Spec.Item.text ++ [q] ++ more.flatMap (Spec.litText q) ++ r)) := by
        simp [Spec.litText]
      rw [e, qBody_items q hq first h1 _ (by simp)]
      rw [qBody_cons2]
      simp only [hq, if_false, if_true, hb1]
    · simp only [List.flatMap_cons, Spec.litText, List.append_assoc, List.cons_append, hb2]
      simp

theorem matchQuoted_lits (q : Char) (hq : q ≠ '\\') (first : List Spec.Item)
    (more : List (List Spec.Item)) (r : Str) (h1 : ∀ x ∈ first, x.Ok q)
    (h2 : ∀ l ∈ more, ∀ x ∈ l, x.Ok q) (hr : r.head? ≠ some q) :
    matchQuoted q (first.flatMap Spec.Item.text ++ [q] ++ more.flatMap (Spec.litText q) ++ r)
      = some (first.flatMap Spec.Item.text ++ [q] ++ more.flatMap (Spec.litText q), r) := by
  obtain ⟨b, hb1, hb2⟩ := qBody_lits q hq more first r h1 h2 hr
  rw [matchQuoted, hb1]
  simp [hb2]

theorem blockEnd_spec (s r : Str) (h : ∀ a b, s ++ ['*'] ≠ a ++ '*' :: '/' :: b) :
    blockEnd (s ++ '*' :: '/' :: r) = some r := by
  induction s with
  | nil => rfl
  | cons c s ih =>
    have h' : ∀ a b, s ++ ['*'] ≠ a ++ '*' :: '/' :: b := by
      intro a b hab; exact h (c :: a) b (by simp [hab])
    rw [List.cons_append, blockEnd]
    · exact ih h'
    · intro s' hc hs
      subst hc
      match s, hs with
      | [], hs => simp at hs
      | d :: s, hs => simp at hs; obtain ⟨rfl, _⟩ := hs; exact h [] (s ++ ['*']) (by simp)

theorem lineEnd_spec (s r : Str) (h : '\n' ∉ s) (hr : ∀ c ∈ r.head?, c = '\n') :
    lineEnd (s ++ r) = r := by
  unfold lineEnd
  rw [List.dropWhile_append_of_pos]
  · cases r with
    | nil => rfl
    | cons c r => have := hr c (by simp); subst this; simp
  · intro c hc; simp; rintro rfl; exact h hc

theorem rcLoop_nil (n : Nat) : rcLoop n [] = [] := by cases n <;> rfl

theorem rcLoop_code (s : Str) : ∀ (r : Str) (n : Nat), Spec.CodeOk s →
    (s.getLast? = some '/' → r.head? ≠ some '/' ∧ r.head? ≠ some '*') → (s ++ r).length ≤ n →
    ∃ m, r.length ≤ m ∧ rcLoop n (s ++ r) = s ++ rcLoop m r := by
  induction s with
  | nil => intro r n _ _ hn; exact ⟨n, by simpa using hn, rfl⟩
  | cons c s ih =>
    intro r n hs hf hn
    match n, hn with
    | n + 1, hn =>
    have hs' : Spec.CodeOk s ∧ c ≠ '"' ∧ c ≠ '\'' := by
      match s, hs with
      | [], hs => exact ⟨trivial, hs⟩
      | d :: s, hs => exact ⟨hs.2.2.2, hs.1, hs.2.1⟩
    have hf' : s.getLast? = some '/' → r.head? ≠ some '/' ∧ r.head? ≠ some '*' := by
      intro h; apply hf
      cases s with
      | nil => simp at h
      | cons d s => simpa [List.getLast?_cons] using h
    obtain ⟨m, hm, he⟩ := ih r n hs'.1 hf' (by simp at hn ⊢; omega)
    refine ⟨m, hm, ?_⟩
    have key : ∀ d, (s ++ r).head? = some d → ¬ (c = '/' ∧ (d = '/' ∨ d = '*')) := by
      intro d hd hcd
      cases s with
      | nil =>
        have := hf (by simp [hcd.1])
        simp at hd
        rcases hcd.2 with rfl | rfl
        · exact this.1 hd
        · exact this.2 hd
      | cons d' s =>
        simp at hd; subst hd
        exact hs.2.2.1 hcd
    rw [List.cons_append, rcLoop]
    · simp [hs'.2.1, hs'.2.2, he]
    · intro s' hc hs2; exact key '*' (by simp [hs2]) ⟨hc, Or.inr rfl⟩
    · intro s' hc hs2; exact key '/' (by simp [hs2]) ⟨hc, Or.inl rfl⟩

theorem rcLoop_segs (ss : List Spec.Seg) : ∀ (n : Nat), Spec.SegsOk ss →
    (ss.flatMap Spec.Seg.text).length ≤ n →
    rcLoop n (ss.flatMap Spec.Seg.text) = ss.flatMap Spec.Seg.kept := by
  induction ss with
  | nil => intro n _ _; exact rcLoop_nil n
  | cons s ss ih =>
    intro n h hn
    obtain ⟨h1, h2, h3⟩ := h
    rw [List.flatMap_cons] at hn
    rw [List.flatMap_cons, List.flatMap_cons]
    cases s with
    | code s =>
      obtain ⟨m, hm, he⟩ := rcLoop_code s _ n h1 h2 hn
      simp only [Spec.Seg.text, Spec.Seg.kept] at he ⊢
      rw [he, ih m h3 hm]
    | lits q first more =>
      obtain ⟨hq, hi, his⟩ := h1
      have hq' : q ≠ '\\' := by rcases hq with rfl | rfl <;> decide
      simp only [Spec.Seg.text, Spec.Seg.kept, Spec.litText, List.cons_append, List.append_assoc,
        List.length_cons] at hn ⊢
      match n, hn with
      | n + 1, hn =>
      have hm := matchQuoted_lits q hq' first more (ss.flatMap Spec.Seg.text) hi his h2
      simp only [List.append_assoc, List.cons_append, List.nil_append] at hm
      rw [rcLoop]
      · have : (decide (q = '"') || decide (q = '\'')) = true := by
          rcases hq with rfl | rfl <;> rfl
        rw [this, if_pos rfl]
        simp only [List.nil_append, hm]
        rw [ih n h3 (by simp at hn ⊢; omega)]
        simp
      · rintro s' rfl; simp at hq
      · rintro s' rfl; simp at hq
    | block s =>
      simp only [Spec.Seg.text, Spec.Seg.kept, List.cons_append, List.append_assoc, List.nil_append,
        List.length_cons] at hn ⊢
      match n, hn with
      | n + 1, hn =>
      rw [rcLoop, blockEnd_spec s _ h1]
      exact ih n h3 (by simp at hn ⊢; omega)
    | line s =>
      simp only [Spec.Seg.text, Spec.Seg.kept, List.cons_append, List.nil_append,
        List.length_cons] at hn ⊢
      match n, hn with
      | n + 1, hn =>
      rw [rcLoop, lineEnd_spec s _ h1 h2]
      exact ih n h3 (by simp at hn ⊢; omega)

/-- **C15.** For every well formed sequence of code, literals and comments, comment removal keeps code
and literals verbatim and in order and deletes exactly the comments. -/
theorem C15_remove_comments (ss : List Spec.Seg) (h : Spec.SegsOk ss) :
    removeComments (ss.flatMap Spec.Seg.text) = ss.flatMap Spec.Seg.kept :=
  rcLoop_segs ss _ h (Nat.le_refl _)

/-! Whatever the text, nothing is invented or reordered. -/

theorem qBody_eq (q : Char) (s : Str) : (qBody q s).1 ++ (qBody q s).2 = s := by
  induction s using qBody.induct q with
  | case1 => rfl
  | case2 c => simp only [qBody]; split <;> rfl
  | case3 c => simp only [qBody]; split <;> rfl
  | _ => rw [qBody_cons2]; simp_all

theorem matchQuoted_eq {q : Char} {s b r : Str} (h : matchQuoted q s = some (b, r)) : b ++ r = s := by
  unfold matchQuoted at h
  have := qBody_eq q s
  split at h
  · rename_i b' c r' heq
    split at h
    · rename_i hc
      rw [heq] at this
      cases h; subst hc; simpa using this
    · cases h
  · cases h

theorem blockEnd_sublist {s r : Str} (h : blockEnd s = some r) : r.Sublist s := by
  induction s using blockEnd.induct with
  | case1 s => simp [blockEnd] at h; subst h; exact (List.Sublist.refl _).cons _ |>.cons _
  | case2 c s hne ih => rw [blockEnd] at h; exact (ih h).cons _; exact hne
  | case3 => simp [blockEnd] at h

theorem rcLoop_sublist (n : Nat) : ∀ s : Str, (rcLoop n s).Sublist s := by
  induction n with
  | zero => intro s; exact List.Sublist.refl _
  | succ n ih =>
    intro s
    match s with
    | [] => exact List.Sublist.refl _
    | c :: s =>
      rw [rcLoop.eq_def]
      split
      · rename_i h; cases h
      · rename_i h; cases h
      · rename_i n' s' h1 h2; injection h1 with h1; subst h1; cases h2
        split
        · rename_i r hr; exact ((ih r).trans (blockEnd_sublist hr)).cons _ |>.cons _
        · exact (ih _).cons_cons _
      · rename_i n' s' h1 h2; injection h1 with h1; subst h1; cases h2
        exact ((ih _).trans (List.dropWhile_sublist _)).cons _ |>.cons _
      · rename_i n' c' s' _ _ h1 h2; injection h1 with h1; subst h1; cases h2
        split
        · split
          · rename_i b r hm
            have := matchQuoted_eq hm
            rw [← this, List.cons_append]
            exact ((List.Sublist.refl b).append (ih r)).cons_cons c
          · exact (ih _).cons_cons _
        · exact (ih _).cons_cons _

/-- **C15.** For every text at all, the result is obtained by deleting characters: nothing is added or
reordered. -/
theorem C15_only_deletes (s : Str) : (removeComments s).Sublist s := rcLoop_sublist _ s

/-- Non-vacuity: comment markers inside literals, quotes inside comments, adjacent literals. -/
example :
    let ss : List Spec.Seg := [.code c%"int a = ", .lits '"' [.chr '/', .chr '*', .esc '"'] [[.hex 'f']],
      .block c%" it's * / \"", .code c%"/ 2;", .lits '\'' [.chr '"'] [], .line c%" don't", .code c%"\nb"]
    Spec.SegsOk ss ∧ ss.flatMap Spec.Seg.kept = c%"int a = \"/*\\\"\"\"\\xf\"/ 2;'\"'\nb" := by
  refine ⟨?_, rfl⟩
  refine ⟨by simp [Spec.Seg.Ok, Spec.CodeOk], ?_, ?_⟩
  · simp [Spec.Seg.Fits]
  refine ⟨⟨Or.inl rfl, ?_, ?_⟩, ?_, ?_⟩
  · simp [Spec.Item.Ok]
  · simp [Spec.Item.Ok, isHexC]
  · simp [Spec.Seg.Fits, Spec.Seg.text]
  refine ⟨?_, trivial, ?_⟩
  · intro a b h
    have hm : ∀ l : Str, l = a ++ '*' :: '/' :: b → ∃ i : Nat, i < l.length ∧ l[i]? = some '*' ∧ l[i+1]? = some '/' := by
      rintro l rfl; exact ⟨a.length, by simp, by simp, by simp⟩
    obtain ⟨i, hi, h1, h2⟩ := hm _ h
    revert i; decide
  refine ⟨by simp [Spec.Seg.Ok, Spec.CodeOk], by simp [Spec.Seg.Fits], ?_⟩
  refine ⟨⟨Or.inr rfl, by simp [Spec.Item.Ok], by simp⟩, by simp [Spec.Seg.Fits, Spec.Seg.text], ?_⟩
  refine ⟨by simp [Spec.Seg.Ok], by simp [Spec.Seg.Fits, Spec.Seg.text], ?_⟩
  exact ⟨by simp [Spec.Seg.Ok, Spec.CodeOk], by simp [Spec.Seg.Fits], trivial⟩

/-- Differences from C, on concrete texts: a comment is not replaced by a space, so tokens can be glued
together; and comments are removed before continuation lines are joined, so a continued line comment
ends too early. -/
theorem C15_differs_from_C :
    removeComments c%"int/**/x" = c%"intx" ∧
    removeComments c%"// a \\\n b" = c%"\n b" := by
  exact ⟨rfl, rfl⟩

end Pyclib
