import Verif.Proof.GrammarFuel
/-
What the parsers of the grammar leave is the end of the text that they are given.
-/
namespace Pyclib

/-- The text after `y` is the end of the text after `x`, and the character before `y` is the last one of the part between
them. -/
def Suf (y x : Pos) : Prop := ∃ a : Str, x.rest = a ++ y.rest ∧ y.prev = a.getLastD x.prev

theorem getLastD_append (b : Str) : ∀ (a : Str) (c : Char), (a ++ b).getLastD c = b.getLastD (a.getLastD c)
  | [], _ => rfl
  | d :: a, c => by rw [List.cons_append, List.getLastD_cons, List.getLastD_cons]; exact getLastD_append b a d

theorem getLastD_any {a : Str} (h : a ≠ []) (c d : Char) : a.getLastD c = a.getLastD d := by
  cases a with
  | nil => exact absurd rfl h
  | cons e a => rw [List.getLastD_cons, List.getLastD_cons]

@[grind →] theorem Suf.trans {a b c : Pos} (h : Suf a b) (h' : Suf b c) : Suf a c := by
  obtain ⟨u, h1, h2⟩ := h
  obtain ⟨v, h3, h4⟩ := h'
  exact ⟨v ++ u, by rw [h3, h1, List.append_assoc], by rw [h2, h4, getLastD_append]⟩
@[grind .] theorem Suf.refl (a : Pos) : Suf a a := ⟨[], rfl, rfl⟩

theorem suf_skipWs : ∀ (p : Char) (s : Str), Suf (skipWs p s) ⟨p, s⟩
  | p, [] => Suf.refl _
  | p, c :: s => by
    unfold skipWs
    split
    · exact (suf_skipWs c s).trans ⟨[c], rfl, rfl⟩
    · exact Suf.refl _

theorem suf_skip (x : Pos) : Suf x.skip x := suf_skipWs _ _
grind_pattern suf_skip => Pos.skip x

/-- After a text that is not empty. -/
theorem suf_posAfter {w s : Str} {x : Pos} (hw : w ≠ []) (h : x.skip.rest = w ++ s) : Suf (posAfter w s) x :=
  Suf.trans ⟨w, h, getLastD_any hw _ _⟩ (suf_skip x)

@[grind →] theorem suf_lit {c : Char} {x y : Pos} (h : lit c x = some y) : Suf y x := by
  unfold lit at h
  split at h
  · cases h
  · rename_i e
    split at h <;> cases h
    rename_i hc
    exact suf_posAfter (w := [c]) (by simp) (by rw [e, hc]; rfl)

theorem matchQuoted_last {q : Char} {s b r : Str} (h : matchQuoted q s = some (b, r)) : ∃ b', b = b' ++ [q] := by
  unfold matchQuoted at h
  split at h
  · split at h <;> cases h
    exact ⟨_, rfl⟩
  · cases h

@[grind →] theorem suf_quotedTok {x : Pos} {w : Str} {y : Pos} (h : quotedTok x = some (w, y)) : Suf y x := by
  unfold quotedTok at h
  split at h
  · cases h
  · rename_i e
    split at h
    · obtain ⟨p, h1, h2⟩ := Option.map_eq_some_iff.1 h
      cases h2
      obtain ⟨b', hb⟩ := matchQuoted_last (b := p.1) (r := p.2) h1
      have he := matchQuoted_eq (b := p.1) (r := p.2) h1
      have := suf_posAfter (w := _ :: p.1) (s := p.2) (x := x) (by simp) (by rw [e, ← he]; rfl)
      rw [show posAfter (_ :: p.1) p.2 = ⟨_, p.2⟩ from by
        unfold posAfter
        rw [hb, List.getLastD_cons, getLastD_append]] at this
      exact this
    · cases h

theorem suf_skipQuoted : ∀ (n : Nat) (x : Pos), Suf (skipQuoted n x) x
  | 0, x => Suf.refl x
  | n + 1, x => by
    have := suf_skipQuoted n
    unfold skipQuoted
    grind
grind_pattern suf_skipQuoted => skipQuoted n x

@[grind →] theorem suf_delim {c : Char} {x y : Pos} (h : delim c x = some y) : Suf y x := by
  unfold delim at h
  grind

theorem suf_kwl {ws : List Str} (hw : [] ∉ ws) {x : Pos} {w : Str} {y : Pos} (h : kwl ws x = some (w, y)) : Suf y x := by
  unfold kwl at h
  simp only at h
  split at h
  · cases h
  · split at h <;> cases h
    rename_i hm
    exact suf_posAfter (fun e => hw (e ▸ hm)) List.takeWhile_append_dropWhile.symm

/-- The whole word `w` stands in the text after `x`. -/
def WordAt (w : Str) (x : Pos) : Prop :=
  w.all isIdC = true ∧ ∃ y b, Suf y x ∧ isIdC y.prev = false ∧ y.rest = w ++ b ∧ ∀ c, b.head? = some c → isIdC c = false

@[grind →] theorem WordAt.mono {w : Str} {x y : Pos} (h : WordAt w y) (hs : Suf y x) : WordAt w x := by
  obtain ⟨h0, z, b, h1, h2⟩ := h
  exact ⟨h0, z, b, h1.trans hs, h2⟩

theorem dropWhile_first (p : Char → Bool) (s : Str) : ∀ c, (s.dropWhile p).head? = some c → p c = false := by
  intro c h
  cases e : p c with
  | false => rfl
  | true =>
    have := List.head?_dropWhile_not p s
    rw [h] at this
    simp [e] at this

theorem takeWhile_allId (p : Char → Bool) (s : Str) : (s.takeWhile p).all p = true := by simp

theorem wordAt_take {x : Pos} (h : isIdC x.skip.prev = false) : WordAt (x.skip.rest.takeWhile isIdC) x :=
  ⟨takeWhile_allId _ _, x.skip, x.skip.rest.dropWhile isIdC, suf_skip x, h, List.takeWhile_append_dropWhile.symm,
    dropWhile_first _ _⟩

theorem suf_keyword {k : Str} (hk : k ≠ []) {x y : Pos} (h : keyword k x = some y) : Suf y x ∧ WordAt k x := by
  unfold keyword at h
  simp only at h
  split at h
  · cases h
  · rename_i hp
    split at h <;> cases h
    rename_i hm
    refine ⟨suf_posAfter hk ?_, ?_⟩
    · rw [← hm]; exact List.takeWhile_append_dropWhile.symm
    · rw [← hm]; exact wordAt_take (by simpa using hp)

/-- Words that begin with a letter, an underscore or a dollar sign. -/
def IdentAt (w : Str) (x : Pos) : Prop := WordAt w x ∧ w.head?.any isIdentStart = true

@[grind →] theorem IdentAt.mono {w : Str} {x y : Pos} (h : IdentAt w y) (hs : Suf y x) : IdentAt w x := ⟨h.1.mono hs, h.2⟩

@[grind →] theorem suf_identP {cfg : Cfg} {x : Pos} {w : Str} {y : Pos} (h : identP cfg x = some (w, y)) :
    Suf y x ∧ IdentAt w x := by
  unfold identP at h
  simp only at h
  split at h
  · cases h
  · rename_i hp
    split at h
    · cases h
    · split at h <;> cases h
      rename_i hm
      have hs : (x.skip.rest.takeWhile isIdC).head?.any isIdentStart = true := by
        cases e : x.skip.rest with
        | nil => rw [e] at hm; cases hm
        | cons c s =>
          rw [e] at hm
          have hc : isIdentStart c = true := by simpa using hm
          have : isIdC c = true := by
            revert hc
            unfold isIdentStart isIdC isWordC
            grind [Char.isAlphanum]
          rw [List.takeWhile_cons, if_pos this]
          simpa using hc
      refine ⟨suf_posAfter ?_ List.takeWhile_append_dropWhile.symm, wordAt_take (by simpa using hp), hs⟩
      intro e
      rw [e] at hs
      cases hs

@[grind →] theorem suf_underIdent {cfg : Cfg} {x y : Pos} (h : underIdent cfg x = some y) : Suf y x := by
  unfold underIdent at h
  simp only at h
  split at h
  · cases h
  · split at h
    · cases h
    · split at h
      · rename_i hs
        split at h <;> cases h
        rename_i hm
        have h1 : Suf ⟨'_', x.skip.rest.drop 2⟩ x := by
          refine Suf.trans ⟨['_', '_'], ?_, rfl⟩ (suf_skip x)
          cases e : x.skip.rest with
          | nil => rw [e] at hs; cases hs
          | cons c s =>
            cases s with
            | nil => rw [e] at hs; simp [startsWith] at hs
            | cons d s =>
              rw [e] at hs
              simp [startsWith] at hs
              rw [hs.1, hs.2]; rfl
        refine Suf.trans (suf_posAfter (x := ⟨'_', x.skip.rest.drop 2⟩) ?_ List.takeWhile_append_dropWhile.symm) h1
        intro e
        cases e' : (Pos.skip ⟨'_', x.skip.rest.drop 2⟩).rest with
        | nil => rw [e'] at hm; cases hm
        | cons c s =>
          rw [e'] at hm e
          have hc : c.isAlphanum = true := by simpa using hm
          rw [List.takeWhile_cons, if_pos (by unfold isIdC isWordC; simp [hc])] at e
          cases e
      · cases h

theorem suf_quoteAt {a : Char} {s : Str} {p : Str × Str}
    (h : (if (decide (a = '"') || decide (a = '\'')) = true then matchQuoted a s else none) = some p) :
    ∃ b, a :: s = b ++ p.2 := by
  split at h
  · exact ⟨a :: p.1, by rw [List.cons_append, matchQuoted_eq (b := p.1) (r := p.2) h]⟩
  · cases h

theorem suf_nestLoop {o c : Char} : ∀ {n d : Nat} {s r : Str}, nestLoop o c n d s = some r → ∃ a, s = a ++ c :: r
  | 0, _, _, _, h => by simp [nestLoop] at h
  | n + 1, _, [], _, h => by simp [nestLoop] at h
  | n + 1, d, a :: s, r, h => by
    have ih := @suf_nestLoop o c n
    have up : ∀ {r}, (∃ b, s = b ++ c :: r) → ∃ b, a :: s = b ++ c :: r := fun ⟨b, e⟩ => ⟨a :: b, by rw [e]; rfl⟩
    unfold nestLoop at h
    split at h
    · rename_i p hp
      obtain ⟨b, e⟩ := suf_quoteAt hp
      obtain ⟨b', e'⟩ := ih h
      exact ⟨b ++ b', by rw [e, e', List.append_assoc]⟩
    · split at h
      · exact up (ih h)
      · split at h
        · split at h
          · rename_i hc _
            cases h
            exact ⟨[], by rw [hc]; rfl⟩
          · exact up (ih h)
        · exact up (ih h)

@[grind →] theorem suf_nestedP {o c : Char} {x y : Pos} (h : nestedP o c x = some y) : Suf y x := by
  unfold nestedP at h
  split at h
  · cases h
  · rename_i z hz
    obtain ⟨r, h1, rfl⟩ := Option.map_eq_some_iff.1 h
    obtain ⟨a, e⟩ := suf_nestLoop h1
    refine Suf.trans ⟨a ++ [c], by rw [e]; simp, ?_⟩ (suf_lit hz)
    rw [getLastD_append]; rfl

@[grind →] theorem suf_qualWords {x : Pos} {w : Str} {y : Pos} (h : kwl qualWords x = some (w, y)) : Suf y x :=
  suf_kwl (by decide) h
@[grind →] theorem suf_storageWords {x : Pos} {w : Str} {y : Pos} (h : kwl storageWords x = some (w, y)) : Suf y x :=
  suf_kwl (by decide) h

theorem suf_qualLoop {cfg : Cfg} : ∀ (n : Nat) (x : Pos), Suf (qualLoop cfg n x).2 x
  | 0, x => Suf.refl x
  | n + 1, x => by
    have := suf_qualLoop (cfg := cfg) n
    unfold qualLoop
    grind
grind_pattern suf_qualLoop => qualLoop cfg n x

theorem suf_qualP {cfg : Cfg} (x : Pos) : Suf (qualP cfg x).2 x := suf_qualLoop _ _
grind_pattern suf_qualP => qualP cfg x

/-! ### Numbers and expressions -/

theorem app_signTok (s : Str) : s = (signTok s).1 ++ (signTok s).2 := by
  unfold signTok
  split <;> simp [List.takeWhile_append_dropWhile]

theorem app_hexTok {s a b r : Str} (h : hexTok s = some (a, b, r)) : s = a ++ b ++ r ∧ a ++ b ≠ [] := by
  have := app_signTok s
  unfold hexTok at h
  split at h
  · rename_i e
    rw [e] at this
    split at h <;> cases h
    refine ⟨?_, by simp⟩
    rw [this]
    simp [List.takeWhile_append_dropWhile]
  · cases h

theorem app_decTok {s a b r : Str} (h : decTok s = some (a, b, r)) : s = a ++ b ++ r ∧ a ++ b ≠ [] := by
  have := app_signTok s
  unfold decTok at h
  split at h
  · rename_i e
    rw [e] at this
    split at h <;> cases h
    refine ⟨?_, by simp⟩
    rw [this]
    simp [List.takeWhile_append_dropWhile]
  · cases h

theorem app_integerTok {s a b r : Str} (h : integerTok s = some (a, b, r)) : s = a ++ b ++ r ∧ a ++ b ≠ [] := by
  unfold integerTok at h
  rcases Option.or_eq_some_iff.1 h with h | ⟨_, h⟩
  · exact app_hexTok h
  · exact app_decTok h

theorem app_expoTok {s a r : Str} (h : expoTok s = some (a, r)) : s = a ++ r := by
  unfold expoTok at h
  split at h
  · split at h
    · simp only at h
      split at h
      · cases h
      · cases h
        split <;> simp [List.takeWhile_append_dropWhile]
    · cases h
  · cases h

theorem app_mantTok {s : Str} {p : Bool} {m r : Str} (h : mantTok s = some (p, m, r)) : s = m ++ r ∧ m ≠ [] := by
  unfold mantTok at h
  split at h
  · split at h <;> cases h
    simp [List.takeWhile_append_dropWhile]
  · split at h <;> cases h
    simp [List.takeWhile_append_dropWhile]
  · split at h <;> cases h
    simp
  · cases h

theorem app_floatTok {s a b r : Str} (h : floatTok s = some (a, b, r)) : s = a ++ b ++ r ∧ a ++ b ≠ [] := by
  have h1 := app_signTok s
  unfold floatTok at h
  split at h
  · cases h
  · rename_i e
    obtain ⟨h2, h3⟩ := app_mantTok e
    split at h
    · rename_i e'
      cases h
      have h4 := app_expoTok e'
      refine ⟨?_, by simp [h3]⟩
      rw [h4] at h2
      rw [h2] at h1
      simpa using h1
    · split at h <;> cases h
      refine ⟨?_, by simp [h3]⟩
      rw [h2] at h1
      simpa using h1

theorem suf_numEnd {p : Str × Str × Str} {x y : Pos} {t : Str} (h : numEnd p = (t, y))
    (he : x.skip.rest = p.1 ++ p.2.1 ++ p.2.2 ∧ p.1 ++ p.2.1 ≠ []) : Suf y x := by
  unfold numEnd at h
  cases h
  exact suf_posAfter he.2 he.1

@[grind →] theorem suf_integerP {x : Pos} {t : Str} {y : Pos} (h : integerP x = some (t, y)) : Suf y x := by
  unfold integerP at h
  obtain ⟨p, h1, h2⟩ := Option.map_eq_some_iff.1 h
  exact suf_numEnd h2 (app_integerTok h1)

@[grind →] theorem suf_numberP {x : Pos} {t : Str} {y : Pos} (h : numberP x = some (t, y)) : Suf y x := by
  unfold numberP at h
  obtain ⟨p, h1, h2⟩ := Option.map_eq_some_iff.1 h
  refine suf_numEnd h2 ?_
  rcases Option.or_eq_some_iff.1 h1 with h | ⟨_, h⟩
  · exact app_floatTok h
  · exact app_integerTok h

theorem startsWith_app : ∀ (s p : Str), startsWith s p = true → s = p ++ s.drop p.length
  | s, [], _ => by simp
  | [], _ :: _, h => by simp [startsWith] at h
  | c :: s, d :: p, h => by
    simp only [startsWith, Bool.and_eq_true, decide_eq_true_eq] at h
    rw [h.1]
    simpa using startsWith_app s p h.2

theorem suf_oneOfP {ops : List Str} (ho : [] ∉ ops) {x : Pos} {o : Str} {y : Pos} (h : oneOfP ops x = some (o, y)) :
    Suf y x := by
  unfold oneOfP at h
  obtain ⟨p, h1, h2⟩ := Option.map_eq_some_iff.1 h
  cases h2
  exact suf_posAfter (fun e => ho (e ▸ List.mem_of_find?_eq_some h1)) (startsWith_app _ _ (List.find?_some h1))

@[grind →] theorem suf_biOps {x : Pos} {o : Str} {y : Pos} (h : oneOfP biOps x = some (o, y)) : Suf y x :=
  suf_oneOfP (by decide) h

theorem suf_opsLoop {ops : List Str} (ho : [] ∉ ops) : ∀ (n : Nat) (x : Pos), Suf (opsLoop ops n x).2 x
  | 0, x => Suf.refl x
  | n + 1, x => by
    have h1 := suf_opsLoop ho n
    have h2 := @suf_oneOfP ops ho
    unfold opsLoop
    grind
theorem suf_rightOps (n : Nat) (x : Pos) : Suf (opsLoop rightOps n x).2 x := suf_opsLoop (by decide) n x
grind_pattern suf_rightOps => opsLoop rightOps n x

/-- A parser leaves the end of its text. -/
def SufP {α : Type} (p : PP α) : Prop := ∀ x a y, p x = some (a, y) → Suf y x

theorem suf_commaLoop {α : Type} {p : PP α} (hp : SufP p) : ∀ (n : Nat) (x : Pos), Suf (commaLoop p n x).2 x
  | 0, x => Suf.refl x
  | n + 1, x => by
    have := suf_commaLoop hp n
    unfold SufP at hp
    unfold commaLoop
    grind

theorem suf_delimited {α : Type} {p : PP α} (hp : SufP p) : SufP (delimited p) := by
  intro x a y h
  have := suf_commaLoop hp
  unfold SufP at hp
  unfold delimited at h
  grind

theorem suf_callP {rec : PP Str} (hr : SufP rec) : SufP (callP rec) := by
  intro x a y h
  have := suf_delimited hr
  unfold SufP at this
  unfold callP at h
  split at h
  · cases h
  · rename_i z hz
    obtain ⟨u, h1, h2⟩ := Option.map_eq_some_iff.1 h
    cases h2
    have h3 := suf_lit h1
    cases hd : delimited rec z with
    | none => rw [hd] at h3; exact h3.trans (suf_lit hz)
    | some q => rw [hd] at h3; exact (h3.trans (this z q.1 q.2 hd)).trans (suf_lit hz)

theorem suf_bind {α : Type} {p : PP α} (hp : SufP p) {c : Char} {x y : Pos} {a : α} (h : (lit c x).bind p = some (a, y)) :
    Suf y x := by
  cases e : lit c x with
  | none => rw [e] at h; cases h
  | some z => rw [e] at h; exact (hp z a y h).trans (suf_lit e)

theorem suf_indexLoop {rec : PP Str} (hr : SufP rec) : ∀ (n : Nat) (x : Pos), Suf (indexLoop rec n x).2 x
  | 0, x => Suf.refl x
  | n + 1, x => by
    have := suf_indexLoop hr n
    have := @suf_bind _ _ hr
    unfold indexLoop
    grind

theorem suf_coreP {cfg : Cfg} {rec : PP Str} (hr : SufP rec) : SufP (coreP cfg rec) := by
  intro x a y h
  have h1 := suf_indexLoop hr
  have h2 := @suf_bind _ _ hr
  have h3 := suf_callP hr
  unfold SufP at h3
  unfold coreP at h
  split at h
  · grind
  · split at h
    · grind
    · split at h
      · grind
      · split at h
        · cases h
        · obtain ⟨u, h4, h5⟩ := Option.map_eq_some_iff.1 h
          grind

theorem sufP_identP (cfg : Cfg) : SufP (identP cfg) := fun _ _ _ h => (suf_identP h).1

theorem suf_castP {cfg : Cfg} (x : Pos) : Suf (castP cfg x) x := by
  have := @suf_bind _ _ (sufP_identP cfg)
  unfold castP
  split
  · exact Suf.refl x
  · rename_i i y e
    cases hl : lit ')' y with
    | none => exact Suf.refl x
    | some z => exact (suf_lit hl).trans (this e)
grind_pattern suf_castP => castP cfg x

theorem suf_atomEnd {cfg : Cfg} {rec : PP Str} (hr : SufP rec) (ops : List Str) : SufP (atomEnd cfg rec ops) := by
  intro x a y h
  have h3 := suf_coreP (cfg := cfg) hr
  unfold SufP at h3
  unfold atomEnd at h
  grind

theorem suf_atomP {cfg : Cfg} {rec : PP Str} (hr : SufP rec) : SufP (atomP cfg rec) := by
  intro x a y h
  have h1 := suf_opsLoop (ops := leftOps) (by decide) x.rest.length x
  unfold atomP at h
  rcases Option.or_eq_some_iff.1 h with h | ⟨_, h⟩
  · exact ((suf_atomEnd hr _ _ _ _ h).trans (suf_castP _)).trans h1
  · exact (suf_atomEnd hr _ _ _ _ h).trans h1

theorem suf_biLoop {cfg : Cfg} {rec : PP Str} (hr : SufP rec) : ∀ (n : Nat) (x : Pos), Suf (biLoop cfg rec n x).2 x
  | 0, x => Suf.refl x
  | n + 1, x => by
    have := suf_biLoop (cfg := cfg) hr n
    have h3 := suf_atomP (cfg := cfg) hr
    unfold SufP at h3
    unfold biLoop
    grind

theorem suf_exprN (cfg : Cfg) : ∀ n, SufP (exprN cfg n)
  | 0 => fun _ _ _ h => by cases h
  | n + 1 => fun x a y h => by
    have h1 := suf_biLoop (cfg := cfg) (suf_exprN cfg n)
    have h3 := suf_atomP (cfg := cfg) (suf_exprN cfg n)
    unfold SufP at h3
    unfold exprN at h
    grind

theorem sufP_exprP (cfg : Cfg) : SufP (exprP cfg) := fun x a y h => suf_exprN cfg _ x a y h
@[grind →] theorem suf_exprP {cfg : Cfg} {x : Pos} {t : Str} {y : Pos} (h : exprP cfg x = some (t, y)) : Suf y x :=
  sufP_exprP cfg x t y h

end Pyclib
