import Verif.Proof.Tabs
import Verif.Proof.Reads
import Verif.Proof.Signed
import Verif.Props.Macro
import Verif.Props.Relaid
/-! Lemmas for C94: tabs in definitions of macros. -/
namespace Pyclib
open Spec

/-- No text of a macro contains a tab. -/
def NoTabs (m : MEnv) : Prop := (∀ k v, dget m.macros k = some v → '\t' ∉ v) ∧ ∀ k v, dget m.fnmacros k = some v → '\t' ∉ v.1

/-- `str.format` makes no tabs. -/
def FormatTabs (orc : Str → List Str → Option Str) : Prop :=
  ∀ t as x, '\t' ∉ t → (∀ a ∈ as, '\t' ∉ a) → orc t as = some x → '\t' ∉ x

theorem strLit_mem {x : Char} : ∀ {s a r : Str}, strLit s = some (a, r) → x ∉ s → x ∉ a ∧ x ∉ r := by
  intro s
  induction s using strLit.induct with
  | case1 => intro a r h; simp [strLit] at h
  | case2 s => intro a r h hx; simp [strLit] at h; obtain ⟨rfl, rfl⟩ := h; simp at hx ⊢; exact hx
  | case3 s a' r' hs ih =>
    intro a r h hx
    simp only [strLit, hs, Option.some.injEq, Prod.mk.injEq] at h
    obtain ⟨rfl, rfl⟩ := h
    simp only [List.mem_cons, not_or] at hx ⊢
    obtain ⟨h1, h2⟩ := ih hs hx.2.2
    exact ⟨⟨hx.1, hx.2.1, h1⟩, h2⟩
  | case4 s hs =>
    intro a r h hx
    simp only [strLit, hs, Option.some.injEq, Prod.mk.injEq] at h
    obtain ⟨rfl, rfl⟩ := h
    simp only [List.mem_cons, not_or, List.not_mem_nil, not_false_eq_true, and_true] at hx ⊢
    exact ⟨⟨hx.1, hx.2.1⟩, hx.2.2⟩
  | case5 c s h1 h2 ih =>
    intro a r h hx
    rw [strLit] at h
    · rw [Option.map_eq_some_iff] at h
      obtain ⟨⟨a', r'⟩, hs, e⟩ := h
      cases e
      simp only [List.mem_cons, not_or] at hx ⊢
      obtain ⟨h3, h4⟩ := ih hs hx.2
      exact ⟨⟨hx.1, h3⟩, h4⟩
    all_goals grind

theorem compileLoop_mem {x : Char} (hx : x ≠ '{' ∧ x ≠ '}') (ps : List Str) : ∀ (n : Nat) (s : Str), x ∉ s → x ∉ (compileLoop ps n s).1 := by
  intro n
  induction n with
  | zero => intro s h; exact h
  | succ n ih =>
    intro s h
    cases s with
    | nil => exact h
    | cons c s =>
      simp only [List.mem_cons, not_or] at h
      rw [compileLoop]
      split
      · split
        · rename_i a r hs
          obtain ⟨h1, h2⟩ := strLit_mem hs h.2
          simp [h.1, h1, ih r h2]
        · simp [h.1, ih s h.2]
      · split
        · have h1 : x ∉ s.takeWhile isWordC := fun e => h.2 ((List.takeWhile_sublist _).subset e)
          have h2 := ih (s.dropWhile isWordC) (fun e => h.2 ((List.dropWhile_sublist _).subset e))
          simp only
          split
          · simp [hx.1, hx.2, h2]
          · simp [h.1, h1, h2]
        · simp [h.1, ih s h.2]

theorem prepend_mem {x : Char} {a : Str} {f : Fmt} {y : Str} (ha : x ∉ a) (hf : ∀ z, f = .ok z → x ∉ z) (h : f.prepend a = .ok y) : x ∉ y := by
  cases f with
  | ok z =>
    simp only [Fmt.prepend, Fmt.ok.injEq] at h
    subst h
    simp [ha, hf z rfl]
  | fail => simp [Fmt.prepend] at h
  | other => simp [Fmt.prepend] at h

theorem fmtLoop_mem {x : Char} (hx : x ≠ '{' ∧ x ≠ '}') : ∀ (t : Str) (as : List Str) (y : Str), x ∉ t → (∀ a ∈ as, x ∉ a) →
    fmtLoop t as = .ok y → x ∉ y := by
  intro t as
  induction t, as using fmtLoop.induct with
  | case1 as => intro y h1 h2 h; rw [fmtLoop] at h; cases h; simp
  | case2 s as ih =>
    intro y h1 h2 h
    simp only [List.mem_cons, not_or] at h1
    exact prepend_mem (a := ['{']) (by simp [hx.1]) (fun z hz => ih z h1.2.2 h2 hz) (by rw [fmtLoop] at h; exact h)
  | case3 s as ih =>
    intro y h1 h2 h
    simp only [List.mem_cons, not_or] at h1
    exact prepend_mem (a := ['}']) (by simp [hx.2]) (fun z hz => ih z h1.2.2 h2 hz) (by rw [fmtLoop] at h; exact h)
  | case4 s a as ih =>
    intro y h1 h2 h
    simp only [List.mem_cons, not_or] at h1
    exact prepend_mem (h2 a (by simp)) (fun z hz => ih z h1.2.2 (fun b hb => h2 b (by simp [hb])) hz) (by rw [fmtLoop] at h; exact h)
  | case9 c s as h3 h4 h5 h6 h7 h8 h9 ih =>
    intro y h1 h2 h
    simp only [List.mem_cons, not_or] at h1
    refine prepend_mem (a := [c]) (by simp [h1.1]) (fun z hz => ih z h1.2 h2 hz) ?_
    rw [fmtLoop] at h
    · exact h
    all_goals grind
  | _ => intro y h1 h2 h; rw [fmtLoop] at h <;> first | cases h | grind

theorem pyFormat_mem {orc : Str → List Str → Option Str} (ho : FormatTabs orc) {t : Str} {as : List Str} {y : Str} (ht : '\t' ∉ t)
    (ha : ∀ a ∈ as, '\t' ∉ a) (h : pyFormat orc t as = some y) : '\t' ∉ y := by
  unfold pyFormat at h
  split at h
  · rename_i z hz
    cases h
    exact fmtLoop_mem (by decide) t as _ ht ha hz
  · cases h
  · exact ho t as y ht ha h

theorem pickArgs_mem {args : List Str} : ∀ {is : List Nat} {as : List Str}, pickArgs args is = some as → ∀ a ∈ as, a ∈ args := by
  intro is
  induction is with
  | nil => intro as h; simp [pickArgs] at h; subst h; simp
  | cons i is ih =>
    intro as h
    rw [pickArgs] at h
    split at h
    · rename_i a as' h1 h2
      cases h
      intro b hb
      rcases List.mem_cons.1 hb with rfl | hb
      · exact List.mem_of_getElem? h1
      · exact ih h2 b hb
    · cases h

theorem mapOpt_mem {α β : Type} {f : α → Option β} : ∀ {as : List α} {bs : List β}, mapOpt f as = some bs → ∀ b ∈ bs, ∃ a ∈ as, f a = some b := by
  intro as
  induction as with
  | nil => intro bs h; simp [mapOpt] at h; subst h; simp
  | cons a as ih =>
    intro bs h
    rw [mapOpt] at h
    split at h
    · rename_i b bs' h1 h2
      cases h
      intro b' hb
      rcases List.mem_cons.1 hb with rfl | hb
      · exact ⟨a, by simp, h1⟩
      · obtain ⟨a', h3, h4⟩ := ih h2 b' hb
        exact ⟨a', by simp [h3], h4⟩
    · cases h

theorem split1_mem {x d : Char} : ∀ {s a b : Str}, split1 d s = some (a, b) → x ∉ s → x ∉ a ∧ x ∉ b := by
  intro s a b h hx
  have := split1_length h
  subst this
  simp at hx
  exact ⟨hx.1, hx.2.2⟩

theorem strip_mem {x : Char} {s : Str} (h : x ∉ s) : x ∉ strip s := by
  intro e
  unfold strip lstrip rstrip at e
  rw [List.mem_reverse] at e
  have := (List.dropWhile_sublist _).subset e
  rw [List.mem_reverse] at this
  exact h ((List.dropWhile_sublist _).subset this)

theorem splitOnC_mem {x d : Char} {s : Str} (h : x ∉ s) : ∀ a ∈ splitOnC d s, x ∉ a := by
  intro a ha
  obtain ⟨p, q, e, _⟩ := splitOnC_part ha
  subst e
  simp only [List.mem_append, not_or] at h
  exact h.2.1

theorem callArgs_mem {x : Char} {t : Str} {args : List Str} {stop : Str} (h : callArgs t = some (args, stop)) (hx : x ∉ t) :
    (∀ a ∈ args, x ∉ a) ∧ x ∉ stop := by
  unfold callArgs at h
  split at h
  · cases h
  · rename_i a rest h1
    obtain ⟨h2, h3⟩ := split1_mem h1 hx
    split at h
    · cases h
    · rename_i b a' h4
      cases h
      obtain ⟨_, h5⟩ := split1_mem h4 h2
      refine ⟨?_, h3⟩
      intro y hy
      obtain ⟨z, hz, rfl⟩ := List.mem_map.1 hy
      exact strip_mem (splitOnC_mem h5 z hz)

theorem strip_head {s t : Str} {c : Char} (h : strip s = c :: t) : isSpaceC c = false := by
  have h1 : lstrip (strip s) = strip s := lstrip_rstrip_of_lstrip s
  rw [h] at h1
  unfold lstrip at h1
  cases hc : isSpaceC c with
  | false => rfl
  | true =>
    rw [List.dropWhile_cons_of_pos hc] at h1
    have := (List.dropWhile_suffix isSpaceC (l := t)).length_le
    rw [h1] at this
    simp at this
    omega

theorem strip_last {s : Str} {c : Char} (h : (strip s).getLast? = some c) : isSpaceC c = false := by
  unfold strip rstrip at h
  rw [List.getLast?_reverse] at h
  exact dropWhile_head _ c (by simpa using h)

theorem expandF_tabs {orc : Str → List Str → Option Str} (ho : FormatTabs orc) {m : MEnv} (hm : NoTabs m) : ∀ (n : Nat) (l y : Str),
    '\t' ∉ l → expandF orc m n l = some y → '\t' ∉ y := by
  intro n
  induction n with
  | zero => intro l y _ h; cases h
  | succ n ih =>
    intro l y hl h
    rw [expandF] at h
    split at h
    · cases h; exact hl
    · rw [Option.map_eq_some_iff] at h
      obtain ⟨z, hz, rfl⟩ := h
      have := ih _ z (fun e => hl ((List.drop_sublist _ _).subset e)) hz
      simp [this]
      exact fun e => hl ((List.dropLast_sublist _).subset e)
    · rename_i pre w rest hf
      have e := (findTok_word hf).eq
      subst e
      simp only [List.mem_append, not_or] at hl
      have wordCase : ∀ v, '\t' ∉ v → ∀ r, '\t' ∉ r → ∀ y, (expandF orc m n r).map (fun r => pre ++ v ++ r) = some y → '\t' ∉ y := by
        intro v hv r hr y h
        rw [Option.map_eq_some_iff] at h
        obtain ⟨z, hz, rfl⟩ := h
        simp [hl.1.1, hv, ih r z hr hz]
      split at h
      · rename_i v hv
        exact wordCase v (hm.1 _ _ hv) rest hl.2 y h
      · split at h
        · exact wordCase w hl.1.2 rest hl.2 y h
        · rename_i defn hd
          split at h
          · exact wordCase w hl.1.2 rest hl.2 y h
          · rename_i args stop hc
            obtain ⟨h1, h2⟩ := callArgs_mem hc hl.2
            split at h
            · cases h
            · rename_i args' ha
              have h3 : ∀ a ∈ args', '\t' ∉ a := by
                intro a hma
                obtain ⟨b, hb, e⟩ := mapOpt_mem ha a hma
                exact ih b a (h1 b hb) e
              split at h
              · exact wordCase w hl.1.2 rest hl.2 y h
              · rename_i t ht
                rw [Option.bind_eq_some_iff] at ht
                obtain ⟨as, hp, hf⟩ := ht
                exact wordCase t (pyFormat_mem ho (hm.2 _ _ hd) (fun a hma => h3 a (pickArgs_mem hp a hma)) hf) stop h2 y h

theorem expand_tabs {orc : Str → List Str → Option Str} (ho : FormatTabs orc) {m : MEnv} (hm : NoTabs m) {l : Str} (hl : '\t' ∉ l) :
    '\t' ∉ expandMacros orc m l := by
  unfold expandMacros
  cases h : expandF orc m (l.length + 1) l with
  | none => simp
  | some y => exact expandF_tabs ho hm _ _ _ hl h

/-! ### Tabs at the ends -/

/-- Behind a tab there are only blanks. -/
def TabLast (y : Str) : Prop := ∀ a b, y = a ++ '\t' :: b → TabBlank b

theorem TabLast.free {y : Str} (h : '\t' ∉ y) : TabLast y := by
  rintro a b rfl; simp at h

theorem TabLast.suffix {x y : Str} (h : TabLast (x ++ y)) : TabLast y := by
  rintro a b rfl
  exact h (x ++ a) b (by simp)

theorem TabLast.before {x y : Str} {d : Char} (h : TabLast (x ++ d :: y)) (hd : d ≠ ' ' ∧ d ≠ '\t') : '\t' ∉ x := by
  intro e
  obtain ⟨a, b, rfl⟩ := List.append_of_mem e
  rcases h a (b ++ d :: y) (by simp) d (by simp) with e | e
  · exact hd.1 e
  · exact hd.2 e

theorem TabLast.put {x y : Str} (h : '\t' ∉ x) (hy : TabLast y) : TabLast (x ++ y) := by
  intro a b e
  rw [List.append_eq_append_iff] at e
  rcases e with ⟨u, rfl, e⟩ | ⟨u, rfl, e⟩
  · exact hy u b e
  · cases u with
    | nil => exact hy [] b (by simpa using e.symm)
    | cons d u =>
      simp only [List.cons_append, List.cons.injEq] at e
      obtain ⟨rfl, _⟩ := e
      simp at h

theorem TabLast.blank {y : Str} (h : TabBlank y) : TabLast y := by
  rintro a b rfl c hc
  exact h c (by simp [hc])

theorem expandF_last {orc : Str → List Str → Option Str} (ho : FormatTabs orc) {m : MEnv} (hm : NoTabs m) : ∀ (n : Nat) (l y : Str),
    TabLast l → expandF orc m n l = some y → TabLast y := by
  intro n
  induction n with
  | zero => intro l y _ h; cases h
  | succ n ih =>
    intro l y hl h
    rw [expandF] at h
    split at h
    · cases h; exact hl
    · rename_i hs
      by_cases ht : '\t' ∈ l
      · have h0 : l ≠ [] := by rintro rfl; simp at ht
        have e : l = l.dropLast ++ [l.getLast h0] := (List.dropLast_append_getLast h0).symm
        have hd : l.drop (l.length - 1) = [l.getLast h0] := by
          conv => lhs; rw [e]
          simp
        rw [hd, Option.map_eq_some_iff] at h
        obtain ⟨z, hz, rfl⟩ := h
        obtain ⟨a, b, e2⟩ := List.append_of_mem ht
        have hb := hl a b e2
        have hlast : l.getLast h0 = ' ' ∨ l.getLast h0 = '\t' := by
          have : l.getLast h0 ∈ '\t' :: b := by
            have : l.getLast h0 = ('\t' :: b).getLast (by simp) := by
              simp only [e2]
              rw [List.getLast_append_of_ne_nil]
            rw [this]; exact List.getLast_mem _
          rcases List.mem_cons.1 this with h | h
          · exact .inr h
          · exact hb _ h
        have : findTok [l.getLast h0] = .none := by rcases hlast with e | e <;> rw [e] <;> rfl
        cases n with
        | zero => cases hz
        | succ n =>
          rw [expandF, this] at hz
          cases hz
          rw [← e]; exact hl
      · refine TabLast.free (expandF_tabs ho hm (n + 1) l y ht ?_)
        rw [expandF, hs]; exact h
    · rename_i pre w rest hf
      have hw := findTok_word hf
      have e := hw.eq
      subst e
      obtain ⟨d, w', rfl⟩ : ∃ d w', w = d :: w' := by
        cases w with
        | nil => exact (hw.ne rfl).elim
        | cons d w' => exact ⟨d, w', rfl⟩
      have hnb : ∀ c ∈ d :: w', c ≠ ' ' ∧ c ≠ '\t' := by
        intro c hc
        have := hw.wd c hc
        constructor <;> (rintro rfl; exact absurd this (by decide))
      have hpre : '\t' ∉ pre := by
        refine TabLast.before (y := w' ++ rest) (d := d) ?_ (hnb d (by simp))
        simpa using hl
      have hwt : '\t' ∉ d :: w' := fun e => (hnb _ e).2 rfl
      have hrest : TabLast rest := hl.suffix
      have wordCase : ∀ v, '\t' ∉ v → ∀ r, TabLast r → ∀ y, (expandF orc m n r).map (fun r => pre ++ v ++ r) = some y → TabLast y := by
        intro v hv r hr y h
        rw [Option.map_eq_some_iff] at h
        obtain ⟨z, hz, rfl⟩ := h
        exact TabLast.put (by simp [hpre, hv]) (ih r z hr hz)
      split at h
      · rename_i v hv
        exact wordCase v (hm.1 _ _ hv) rest hrest y h
      · split at h
        · exact wordCase _ hwt rest hrest y h
        · rename_i defn hd
          split at h
          · exact wordCase _ hwt rest hrest y h
          · rename_i args stop hc
            have hargs : (∀ a ∈ args, '\t' ∉ a) ∧ TabLast stop := by
              unfold callArgs at hc
              split at hc
              · cases hc
              · rename_i a st h1
                have e1 := split1_length h1
                subst e1
                have h2 : '\t' ∉ a := hrest.before (by decide)
                have h3 : TabLast st := TabLast.suffix (x := a ++ [')']) (by simpa using hrest)
                split at hc
                · cases hc
                · rename_i b a' h4
                  cases hc
                  obtain ⟨_, h5⟩ := split1_mem h4 h2
                  refine ⟨?_, h3⟩
                  intro y hy
                  obtain ⟨z, hz, rfl⟩ := List.mem_map.1 hy
                  exact strip_mem (splitOnC_mem h5 z hz)
            obtain ⟨h1, h2⟩ := hargs
            split at h
            · cases h
            · rename_i args' ha
              have h3 : ∀ a ∈ args', '\t' ∉ a := by
                intro a hma
                obtain ⟨b, hb, e⟩ := mapOpt_mem ha a hma
                exact expandF_tabs ho hm n b a (h1 b hb) e
              split at h
              · exact wordCase _ hwt rest hrest y h
              · rename_i t ht
                rw [Option.bind_eq_some_iff] at ht
                obtain ⟨as, hp, hf⟩ := ht
                exact wordCase t (pyFormat_mem ho (hm.2 _ _ hd) (fun a hma => h3 a (pickArgs_mem hp a hma)) hf) stop h2 y h

theorem expand_last {orc : Str → List Str → Option Str} (ho : FormatTabs orc) {m : MEnv} (hm : NoTabs m) {l : Str} (hl : TabLast l) :
    TabLast (expandMacros orc m l) := by
  unfold expandMacros
  cases h : expandF orc m (l.length + 1) l with
  | none => exact TabLast.free (by simp)
  | some y => exact expandF_last ho hm _ _ _ hl h

/-- Tabs only in front and at the end. -/
def TabEdge (y : Str) : Prop := ∃ pre core, y = pre ++ core ∧ TabBlank pre ∧ TabLast core

theorem TabEdge.of {r : Str} (h : TabEnds r) : TabEdge r := by
  obtain ⟨pre, core, post, rfl, h1, h2, h3⟩ := h
  exact ⟨pre, core ++ post, by simp, h1, TabLast.put h2 (TabLast.blank h3)⟩

theorem tabBlank_copy {pre : Str} (h : TabBlank pre) : ∀ c ∈ pre, isWordC c = false ∧ c ≠ '"' := by
  intro c hc
  rcases h c hc with rfl | rfl <;> decide

theorem TabEdge.expand {orc : Str → List Str → Option Str} (ho : FormatTabs orc) {m : MEnv} (hm : NoTabs m) {r : Str} (h : TabEdge r) :
    TabEdge (expandMacros orc m r) := by
  obtain ⟨pre, core, rfl, h1, h2⟩ := h
  exact ⟨pre, _, expand_prefix orc m (tabBlank_copy h1), h1, expand_last ho hm h2⟩

theorem TabEdge.suffix {x y : Str} (h : TabEdge (x ++ y)) : TabEdge y := by
  obtain ⟨pre, core, e, h1, h2⟩ := h
  rw [List.append_eq_append_iff] at e
  rcases e with ⟨u, rfl, rfl⟩ | ⟨u, rfl, rfl⟩
  · exact ⟨u, core, rfl, fun c hc => h1 c (by simp [hc]), h2⟩
  · exact ⟨[], y, rfl, by simp [TabBlank], h2.suffix⟩

theorem TabEdge.strip {y : Str} (h : TabEdge y) : '\t' ∉ strip y := by
  intro hm
  obtain ⟨a, b, e, ha, hb⟩ := strip_parts y
  rw [e] at h
  have hx : TabEdge (Pyclib.strip y ++ b) := h.suffix
  obtain ⟨pre, core, e2, h1, h2⟩ := hx
  -- the stripped text does not begin with white space
  have hne : Pyclib.strip y ≠ [] := by intro e; rw [e] at hm; simp at hm
  obtain ⟨c, s, hcs⟩ : ∃ c s, Pyclib.strip y = c :: s := by
    cases hs : Pyclib.strip y with
    | nil => exact (hne hs).elim
    | cons c s => exact ⟨c, s, rfl⟩
  have hc : isSpaceC c = false := strip_head hcs
  have hp : pre = [] := by
    cases pre with
    | nil => rfl
    | cons d pre =>
      rw [hcs] at e2
      simp only [List.cons_append, List.cons.injEq] at e2
      obtain ⟨rfl, _⟩ := e2
      rcases h1 c (by simp) with rfl | rfl <;> exact absurd hc (by decide)
  subst hp
  simp only [List.nil_append] at e2
  subst e2
  obtain ⟨u, v, e3⟩ := List.append_of_mem hm
  have hv := h2 u (v ++ b) (by rw [e3]; simp)
  have hl : ∃ d, (Pyclib.strip y).getLast? = some d ∧ isSpaceC d = true := by
    rw [e3]
    cases hv' : v.getLast? with
    | none =>
      have : v = [] := by simpa using hv'
      subst this
      exact ⟨'\t', by simp, by decide⟩
    | some d =>
      refine ⟨d, by simp [List.getLast?_append, List.getLast?_cons, hv'], ?_⟩
      rcases hv d (by simp [List.mem_of_getLast? hv']) with rfl | rfl <;> decide
  obtain ⟨d, h4, h5⟩ := hl
  rw [strip_last h4] at h5
  cases h5

/-! ### Reading of definitions -/

theorem dropWhile_exp {p : Char → Bool} (hp : p ' ' = p '\t') (s : Str) : ∀ k, ∃ k', (expandTabs k s).dropWhile p = expandTabs k' (s.dropWhile p) := by
  induction s with
  | nil => intro k; exact ⟨k, rfl⟩
  | cons c s ih =>
    intro k
    by_cases hc : c = '\t'
    · subst hc
      cases ht : p '\t' with
      | true =>
        obtain ⟨k', h⟩ := ih (colAfter1 k '\t')
        refine ⟨k', ?_⟩
        have : ∀ n x, (List.replicate n ' ' ++ x).dropWhile p = x.dropWhile p := by
          intro n x
          induction n with
          | zero => rfl
          | succ n ih => rw [List.replicate_succ, List.cons_append, List.dropWhile_cons_of_pos (by rw [hp, ht]), ih]
        rw [List.dropWhile_cons_of_pos ht, ← h]
        simp only [expandTabs, if_true]
        exact this _ _
      | false =>
        refine ⟨k, ?_⟩
        obtain ⟨n, hn⟩ := exp_tab k s
        rw [List.dropWhile_cons_of_neg (by rw [ht]; decide), hn, List.dropWhile_cons_of_neg (by rw [hp, ht]; decide)]
    · rw [exp_other hc]
      cases ht : p c with
      | true =>
        obtain ⟨k', h⟩ := ih (colAfter1 k c)
        exact ⟨k', by rw [List.dropWhile_cons_of_pos ht, List.dropWhile_cons_of_pos ht, h]⟩
      | false =>
        exact ⟨k, by rw [List.dropWhile_cons_of_neg (by simp [ht]), List.dropWhile_cons_of_neg (by simp [ht]), exp_other hc]⟩

theorem takeWhile_exp {p : Char → Bool} (h1 : p ' ' = false) (h2 : p '\t' = false) (s : Str) : ∀ k, (expandTabs k s).takeWhile p = s.takeWhile p := by
  induction s with
  | nil => intro k; rfl
  | cons c s ih =>
    intro k
    by_cases hc : c = '\t'
    · subst hc
      obtain ⟨n, hn⟩ := exp_tab k s
      rw [hn, List.takeWhile_cons_of_neg (by simp [h1]), List.takeWhile_cons_of_neg (by simp [h2])]
    · rw [exp_other hc]
      cases ht : p c with
      | true => rw [List.takeWhile_cons_of_pos ht, List.takeWhile_cons_of_pos ht, ih]
      | false => rw [List.takeWhile_cons_of_neg (by simp [ht]), List.takeWhile_cons_of_neg (by simp [ht])]

theorem skipBlank_exp (s : Str) (k : Nat) : ∃ k', skipBlank (expandTabs k s) = expandTabs k' (skipBlank s) :=
  dropWhile_exp (p := fun c => c = ' ' || c = '\t') rfl s k

theorem skipBlank_tab {s t : Str} {c : Char} (h : skipBlank s = c :: t) : c ≠ '\t' := by
  have := dropWhile_head (p := fun c => c = ' ' || c = '\t') s c (by unfold skipBlank at h; simp [h])
  rintro rfl
  exact absurd this (by decide)

theorem identTok_exp (s : Str) (k : Nat) : (identTok s = none → identTok (expandTabs k s) = none) ∧
    ∀ x r, identTok s = some (x, r) → ∃ k', identTok (expandTabs k s) = some (x, expandTabs k' r) := by
  obtain ⟨k1, h1⟩ := skipBlank_exp s k
  unfold identTok
  rw [h1]
  cases h2 : skipBlank s with
  | nil => simp [expandTabs]
  | cons c t =>
    rw [exp_other (skipBlank_tab h2)]
    simp only
    split
    · refine ⟨by simp, ?_⟩
      intro x r e
      simp only [Option.some.injEq, Prod.mk.injEq] at e
      obtain ⟨rfl, rfl⟩ := e
      obtain ⟨k', h⟩ := dropWhile_exp (p := isWordC) (by decide) t (colAfter1 k1 c)
      exact ⟨k', by rw [h, takeWhile_exp (by decide) (by decide)]⟩
    · simp

theorem moreParams_exp : ∀ (n : Nat) (s : Str) (k : Nat), (moreParams n s = none → moreParams n (expandTabs k s) = none) ∧
    ∀ ps r, moreParams n s = some (ps, r) → ∃ k', moreParams n (expandTabs k s) = some (ps, expandTabs k' r) := by
  intro n
  induction n with
  | zero => intro s k; simp [moreParams]
  | succ n ih =>
    intro s k
    obtain ⟨k1, h1⟩ := skipBlank_exp s k
    rw [moreParams, moreParams, h1]
    cases h2 : skipBlank s with
    | nil => simp [expandTabs]
    | cons c t =>
      rw [exp_other (skipBlank_tab h2)]
      by_cases hc1 : c = ')'
      · subst hc1
        refine ⟨by simp, ?_⟩
        intro ps r e
        simp only [Option.some.injEq, Prod.mk.injEq] at e
        obtain ⟨rfl, rfl⟩ := e
        exact ⟨_, rfl⟩
      · by_cases hc2 : c = ','
        · subst hc2
          simp only
          obtain ⟨h3, h4⟩ := identTok_exp t (colAfter1 k1 ',')
          cases h5 : identTok t with
          | none => rw [h3 h5]; simp
          | some p =>
            obtain ⟨x, r⟩ := p
            obtain ⟨k2, h6⟩ := h4 x r h5
            rw [h6]
            simp only
            obtain ⟨h7, h8⟩ := ih r k2
            refine ⟨fun e => ?_, ?_⟩
            · rw [Option.map_eq_none_iff] at e ⊢
              exact h7 e
            · intro ps r' e
              rw [Option.map_eq_some_iff] at e
              obtain ⟨⟨ps', r''⟩, e1, e2⟩ := e
              cases e2
              obtain ⟨k3, h9⟩ := h8 _ _ e1
              exact ⟨k3, by rw [h9]; rfl⟩
        · grind

theorem identTok_suffix {s x r : Str} (h : identTok s = some (x, r)) : (∃ u, s = u ++ r) ∧ r.length < s.length := by
  unfold identTok at h
  have h0 : skipBlank s <:+ s := List.dropWhile_suffix _
  split at h
  · rename_i c t h1
    split at h
    · cases h
      rw [h1] at h0
      have h2 : t.dropWhile isWordC <:+ t := List.dropWhile_suffix _
      have h3 : t <:+ s := (List.suffix_cons c t).trans h0
      obtain ⟨u, hu⟩ := h2.trans h3
      refine ⟨⟨u, hu.symm⟩, ?_⟩
      have := h2.length_le
      have := h0.length_le
      simp at this
      omega
    · cases h
  · cases h

theorem moreParams_suffix : ∀ (n : Nat) {s r : Str} {ps : List Str}, moreParams n s = some (ps, r) → ∃ u, s = u ++ r := by
  intro n
  induction n with
  | zero => intro s r ps h; cases h
  | succ n ih =>
    intro s r ps h
    have h0 : skipBlank s <:+ s := List.dropWhile_suffix _
    rw [moreParams] at h
    split at h
    · rename_i t h1
      cases h
      rw [h1] at h0
      obtain ⟨u, hu⟩ := (List.suffix_cons _ _).trans h0
      exact ⟨u, hu.symm⟩
    · rename_i t h1
      rw [h1] at h0
      obtain ⟨u, hu⟩ := (List.suffix_cons _ _).trans h0
      split at h
      · cases h
      · rename_i x r' h2
        rw [Option.map_eq_some_iff] at h
        obtain ⟨⟨ps', r''⟩, e1, e2⟩ := h
        cases e2
        obtain ⟨⟨v, hv⟩, _⟩ := identTok_suffix h2
        obtain ⟨v', hv'⟩ := ih e1
        exact ⟨u ++ v ++ v', by rw [← hu, hv, hv']; simp⟩
    · cases h

theorem moreParams_fuel : ∀ (n m : Nat) (s : Str), s.length < n → s.length < m → moreParams n s = moreParams m s := by
  intro n
  induction n with
  | zero => intro m s h; omega
  | succ n ih =>
    intro m s h1 h2
    cases m with
    | zero => omega
    | succ m =>
      rw [moreParams, moreParams]
      have h0 : (skipBlank s).length ≤ s.length := (List.dropWhile_suffix _).length_le
      split
      · rfl
      · rename_i t e
        rw [e] at h0
        simp at h0
        split
        · rfl
        · rename_i x r e2
          have := (identTok_suffix e2).2
          rw [ih m r (by omega) (by omega)]
      · rfl

theorem paramList_exp (s : Str) (k : Nat) : (paramList s = none → paramList (expandTabs k s) = none) ∧
    ∀ ps r, paramList s = some (ps, r) → ∃ k', paramList (expandTabs k s) = some (ps, expandTabs k' r) := by
  obtain ⟨k1, h1⟩ := skipBlank_exp s k
  unfold paramList
  rw [h1]
  cases h2 : skipBlank s with
  | nil => simp [expandTabs]
  | cons c t =>
    rw [exp_other (skipBlank_tab h2)]
    by_cases hc : c = '('
    · subst hc
      simp only
      obtain ⟨h3, h4⟩ := identTok_exp t (colAfter1 k1 '(')
      cases h5 : identTok t with
      | none => rw [h3 h5]; simp
      | some p =>
        obtain ⟨x, r⟩ := p
        obtain ⟨k2, h6⟩ := h4 x r h5
        rw [h6]
        simp only
        rw [moreParams_fuel (r.length + 1) (r.length + (expandTabs k2 r).length + 1) r (by omega) (by omega),
          moreParams_fuel ((expandTabs k2 r).length + 1) (r.length + (expandTabs k2 r).length + 1) _ (by omega) (by omega)]
        obtain ⟨h7, h8⟩ := moreParams_exp (r.length + (expandTabs k2 r).length + 1) r k2
        refine ⟨fun e => ?_, ?_⟩
        · rw [Option.map_eq_none_iff] at e ⊢
          exact h7 e
        · intro ps r' e
          rw [Option.map_eq_some_iff] at e
          obtain ⟨⟨ps', r''⟩, e1, e2⟩ := e
          cases e2
          obtain ⟨k3, h9⟩ := h8 _ _ e1
          exact ⟨k3, by rw [h9]; rfl⟩
    · grind

theorem paramList_suffix {s r : Str} {ps : List Str} (h : paramList s = some (ps, r)) : ∃ u, s = u ++ r := by
  unfold paramList at h
  have h0 : skipBlank s <:+ s := List.dropWhile_suffix _
  split at h
  · rename_i t h1
    rw [h1] at h0
    obtain ⟨u, hu⟩ := (List.suffix_cons _ _).trans h0
    split at h
    · cases h
    · rename_i x r' h2
      rw [Option.map_eq_some_iff] at h
      obtain ⟨⟨ps', r''⟩, e1, e2⟩ := h
      cases e2
      obtain ⟨⟨v, hv⟩, _⟩ := identTok_suffix h2
      obtain ⟨v', hv'⟩ := moreParams_suffix _ e1
      exact ⟨u ++ v ++ v', by rw [← hu, hv, hv']; simp⟩
  · cases h

theorem strip_exp {s : Str} (h : '\t' ∉ strip s) (k : Nat) : strip (expandTabs k s) = strip s := by
  unfold strip at h ⊢
  obtain ⟨k', h1⟩ := dropWhile_exp (p := isSpaceC) (by decide) s k
  have h1' : lstrip (expandTabs k s) = expandTabs k' (lstrip s) := h1
  rw [h1']
  generalize lstrip s = t at h ⊢
  have e : t = rstrip t ++ (t.reverse.takeWhile isSpaceC).reverse := by
    unfold rstrip
    rw [← List.reverse_append, List.takeWhile_append_dropWhile, List.reverse_reverse]
  have hs : ∀ c ∈ (t.reverse.takeWhile isSpaceC).reverse, isSpaceC c = true := by
    intro c hc
    rw [List.mem_reverse] at hc
    exact List.all_eq_true.1 (List.all_takeWhile (p := isSpaceC)) c hc
  generalize (t.reverse.takeWhile isSpaceC).reverse = post at e hs
  have hpost : ∀ {post : Str} {k}, (∀ c ∈ post, isSpaceC c = true) → ∀ c ∈ expandTabs k post, isSpaceC c = true := by
    intro post
    induction post with
    | nil => intro k _ c hc; simp [expandTabs] at hc
    | cons d post ih =>
      intro k h c hc
      rw [expandTabs, List.mem_append] at hc
      rcases hc with hc | hc
      · split at hc
        · rw [List.mem_replicate] at hc; rw [hc.2]; decide
        · simp at hc; subst hc; exact h c (by simp)
      · exact ih (fun c hc => h c (by simp [hc])) c hc
  have hr : ∀ x q : Str, (∀ c ∈ q, isSpaceC c = true) → rstrip (x ++ q) = rstrip x := by
    intro x q hq
    unfold rstrip
    rw [List.reverse_append]
    congr 1
    have : ∀ (q y : Str), (∀ c ∈ q, isSpaceC c = true) → (q ++ y).dropWhile isSpaceC = y.dropWhile isSpaceC := by
      intro q y hq
      induction q with
      | nil => rfl
      | cons c q ih => rw [List.cons_append, List.dropWhile_cons_of_pos (hq c (by simp)), ih (fun d hd => hq d (by simp [hd]))]
    exact this _ _ (fun c hc => hq c (by simpa using hc))
  conv => lhs; rw [e]
  rw [exp_app, exp_free h, hr _ _ (hpost hs), rstrip_rstrip]

/-- The tabs in the text behind the name of a macro do not matter, unless one is inside its value. -/
theorem parseDefine_exp {r : Str} (h : '\t' ∉ (parseDefine r).2) (k : Nat) : parseDefine (expandTabs k r) = parseDefine r := by
  obtain ⟨h1, h2⟩ := paramList_exp r k
  unfold parseDefine at h ⊢
  cases h3 : paramList r with
  | none =>
    rw [h1 h3]
    rw [h3] at h
    exact congrArg _ (strip_exp h k)
  | some p =>
    obtain ⟨ps, y⟩ := p
    obtain ⟨k', h4⟩ := h2 _ _ h3
    rw [h4]
    rw [h3] at h
    exact congrArg _ (strip_exp h k')

theorem edge_value {r : Str} (h : TabEdge r) : '\t' ∉ (parseDefine r).2 := by
  unfold parseDefine
  split
  · rename_i ps y h1
    obtain ⟨u, rfl⟩ := paramList_suffix h1
    exact h.suffix.strip
  · exact h.strip

end Pyclib
