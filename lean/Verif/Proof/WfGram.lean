import Verif.Proof.Wf
import Verif.Proof.Types
import Verif.Proof.GrammarDecl
/-! The definition tables stay well-formed, whatever the text: the grammar. -/
namespace Pyclib
open Spec

section
variable {cfg : Cfg} {junk : Str → Str}

/-- The tables stay well-formed and grow. -/
def Keeps2 (cfg : Cfg) (junk : Str → Str) (s s' : Store DefVal) : Prop := TablesWf cfg junk s' ∧ Grows s s'

theorem Keeps2.refl {s : Store DefVal} (h : TablesWf cfg junk s) : Keeps2 cfg junk s s := ⟨h, .refl s⟩

theorem Keeps2.trans {a b c : Store DefVal} (h : Keeps2 cfg junk a b) (h' : Keeps2 cfg junk b c) : Keeps2 cfg junk a c :=
  ⟨h'.1, h.2.trans h'.2⟩

/-- A declarator with a name. -/
def NamedWf (cfg : Cfg) (junk : Str → Str) (s : Store DefVal) (d : Decl) : Prop :=
  d.Made cfg (TypeName cfg junk s) ∧ ∃ n, d.name = some n

theorem NamedWf.grow {s s' : Store DefVal} (hg : Grows s s') {d : Decl} (h : NamedWf cfg junk s d) : NamedWf cfg junk s' d :=
  ⟨Decl.Made.mono (fun _ => hg.name) d h.1, h.2⟩

/-! ### Processing of declarations -/

theorem named_type {s : Store DefVal} {ev : Str → PVal} {tq : List Str} {tn : Str} {d : Decl} {n : Option Str} {t : CType}
    (hn : TypeName cfg junk s tn) (hd : NamedWf cfg junk s d) (h : procType ev tq tn d = .ok (n, t)) :
    ∃ m, n = some m ∧ IsName cfg m ∧ TypeWf (TypeName cfg junk s) t := by
  obtain ⟨h1, h2⟩ := procType_wf hn hd.1 h
  obtain ⟨m, hm⟩ := hd.2
  exact ⟨m, h1.trans hm, made_name d hd.1 hm, h2⟩

theorem enumLoop_wf (ev : EvalExpr) : ∀ (ms : List (Str × Option Str)) (s : Store DefVal) (i : PVal) (d : Dict Str PVal),
    TablesWf cfg junk s → (∀ n j, dget d n = some j → Spec.IsNumber j ∧ dhas (s.defs .values) n = true) →
    Keeps2 cfg junk s (enumLoop ev s i d ms).1 ∧ ∀ d', (enumLoop ev s i d ms).2 = .ok d' →
      ∀ n j, dget d' n = some j → Spec.IsNumber j ∧ dhas ((enumLoop ev s i d ms).1.defs .values) n = true
  | [], s, i, d, hs, hd => ⟨.refl hs, fun d' h => by cases h; exact hd⟩
  | (n, e) :: ms, s, i, d, hs, hd => by
    have key : ∀ j, Keeps2 cfg junk s (addDef s .values n (.value j)) := fun j =>
      ⟨wf_add hs (by simp) ⟨j, rfl⟩, grows_add (by simp)⟩
    have ih : ∀ (v v' : PVal) (_ : Spec.IsNumber v), _ := fun v v' hv =>
      enumLoop_wf ev ms (addDef s .values n (.value v)) v' (dset d n v) (key _).1 (by
        intro n' i' h'
        rw [dget_dset] at h'
        split at h'
        · rename_i hh; cases h'; subst hh
          exact ⟨hv, dhas_add.2 (.inl ⟨rfl, rfl⟩)⟩
        · exact ⟨(hd n' i' h').1, dhas_add.2 (.inr (hd n' i' h').2)⟩)
    have bad : ∀ j d', (Except.error PyErr.typeError : Except PyErr (Dict Str PVal)) = .ok d' →
        ∀ n' i', dget d' n' = some i' → Spec.IsNumber i' ∧ dhas ((addDef s .values n (.value j)).defs .values) n' = true :=
      fun _ _ h => by cases h
    cases e with
    | none =>
      cases i with
      | int k => exact ⟨(key _).trans (ih _ _ (.inl ⟨k, rfl⟩)).1, (ih _ _ (.inl ⟨k, rfl⟩)).2⟩
      | flt q => exact ⟨(key _).trans (ih _ _ (.inr ⟨q, rfl⟩)).1, (ih _ _ (.inr ⟨q, rfl⟩)).2⟩
      | str t => exact ⟨key _, bad _⟩
      | none => exact ⟨key _, bad _⟩
      | list l => exact ⟨key _, bad _⟩
      | other => exact ⟨key _, bad _⟩
    | some e =>
      simp only [enumLoop]
      generalize evIn ev s e = j
      cases j with
      | int k => exact ⟨(key _).trans (ih _ _ (.inl ⟨k, rfl⟩)).1, (ih _ _ (.inl ⟨k, rfl⟩)).2⟩
      | flt q => exact ⟨(key _).trans (ih _ _ (.inr ⟨q, rfl⟩)).1, (ih _ _ (.inr ⟨q, rfl⟩)).2⟩
      | str t => exact ⟨key _, bad _⟩
      | none => exact ⟨key _, bad _⟩
      | list l => exact ⟨key _, bad _⟩
      | other => exact ⟨key _, bad _⟩

theorem procEnum_wf (ev : EvalExpr) {s : Store DefVal} (hs : TablesWf cfg junk s) (name : Option Str)
    (ms : List (Str × Option Str)) : Keeps2 cfg junk s (procEnum ev s name ms).1 ∧
      ∀ n, (procEnum ev s name ms).2 = some n → TypeName cfg junk (procEnum ev s name ms).1 n := by
  simp only [procEnum]
  generalize name.getD _ = tag
  split
  · rename_i h
    exact ⟨.refl hs, fun n e => by cases e; exact .enum tag h⟩
  · have h := enumLoop_wf ev ms s (.int 0) [] hs (by simp [dget])
    split
    · rename_i e; rw [e] at h; exact ⟨h.1, fun n e => by cases e⟩
    · rename_i s1 d e
      rw [e] at h
      have hg := grows_tag (s := s1) (k := .enums) (w := c%"enum") (tag := tag) (v := .enum d) rfl (by decide) (.inl rfl)
      refine ⟨h.1.trans ⟨wf_enum h.1.1 (h.2 d rfl), hg⟩, fun n e => ?_⟩
      cases e
      exact .enum tag (dhas_add.2 (.inr (dhas_add.2 (.inl ⟨rfl, rfl⟩))))

/-- A member declaration as the grammar makes it. -/
def MemberDeclWf (cfg : Cfg) (junk : Str → Str) (s : Store DefVal) (m : MemberDecl) : Prop :=
  TypeName cfg junk s m.tn ∧ ∀ d ∈ m.decls, NamedWf cfg junk s d

theorem memberDecls_wf {s : Store DefVal} {ev : Str → PVal} {tq : List Str} {tn : Str} {val : PVal} {bit : Option Str}
    (hn : TypeName cfg junk s tn) : ∀ (ds : List Decl), (∀ d ∈ ds, NamedWf cfg junk s d) → ∀ {ms},
    memberDecls ev tq tn val bit ds = .ok ms → ∀ m ∈ ms, MemberWf cfg (TypeName cfg junk s) m
  | [], _, ms, h => by cases h; simp
  | d :: ds, hd, ms, h => by
    simp only [memberDecls] at h
    split at h
    · cases h
    · rename_i n t ht
      split at h
      · cases h
      · split at h
        · cases h
        · rename_i ms' hr
          cases h
          intro m hm
          rcases List.mem_cons.1 hm with rfl | hm
          · obtain ⟨x, h1, h2, h3⟩ := named_type hn (hd d (by simp)) ht
            exact .inl ⟨x, h1, h2, h3⟩
          · exact memberDecls_wf hn ds (fun d h => hd d (by simp [h])) hr m hm

theorem membersOf_wf {s : Store DefVal} {ev : Str → PVal} : ∀ (ds : List MemberDecl),
    (∀ d ∈ ds, MemberDeclWf cfg junk s d) → ∀ {ms}, membersOf ev ds = .ok ms →
    ∀ m ∈ ms, MemberWf cfg (TypeName cfg junk s) m
  | [], _, ms, h => by cases h; simp
  | d :: ds, hd, ms, h => by
    simp only [membersOf] at h
    split at h
    · cases h
    · rename_i a ha
      split at h
      · cases h
      · rename_i b hb
        cases h
        intro m hm
        rcases List.mem_append.1 hm with hm | hm
        · obtain ⟨h1, h2⟩ := hd d (by simp)
          simp only [memberOf] at ha
          split at ha
          · split at ha
            · cases ha
            · cases ha
              simp at hm; subst hm
              exact .inr ⟨rfl, rfl, rfl⟩
          · exact memberDecls_wf h1 _ h2 ha m hm
        · exact membersOf_wf ds (fun d h => hd d (by simp [h])) hb m hm

theorem procStruct_wf (ev : EvalExpr) {s : Store DefVal} (hs : TablesWf cfg junk s) (u : Bool) (name : Option Str)
    (ms : List MemberDecl) (pk : Option Nat) (hm : ∀ m ∈ ms, MemberDeclWf cfg junk s m) :
    Keeps2 cfg junk s (procStruct ev s u name ms pk).1 ∧
      ∀ n, (procStruct ev s u name ms pk).2 = some n → TypeName cfg junk (procStruct ev s u name ms pk).1 n := by
  simp only [procStruct]
  generalize name.getD _ = tag
  split
  · split
    · exact ⟨.refl hs, fun n e => by cases e⟩
    · rename_i l e
      have hg := grows_tag (s := s) (k := compKind u) (w := compWord u) (tag := tag) (v := .compound l pk) rfl
        (by cases u <;> decide) (.inr ⟨u, rfl⟩)
      refine ⟨⟨wf_compound hs (membersOf_wf ms hm e), hg⟩, fun n e => ?_⟩
      cases e
      exact .comp u tag (dhas_add.2 (.inr (dhas_add.2 (.inl ⟨rfl, rfl⟩))))
  · rename_i h
    refine ⟨.refl hs, fun n e => ?_⟩
    cases e
    refine .comp u tag ?_
    cases hh : dhas (s.defs (compKind u)) tag with
    | true => rfl
    | false => exact absurd (.inr hh) h

theorem typedefLoop_wf (ev : EvalExpr) (tq : List Str) (tn : Str) : ∀ (ds : List Decl) (s : Store DefVal),
    TablesWf cfg junk s → TypeName cfg junk s tn → (∀ d ∈ ds, NamedWf cfg junk s d) →
    Keeps2 cfg junk s (typedefLoop ev tq tn s ds).1
  | [], s, hs, _, _ => .refl hs
  | d :: ds, s, hs, hn, hd => by
    simp only [typedefLoop]
    split
    · exact .refl hs
    · rename_i n t ht
      obtain ⟨m, rfl, h2, h3⟩ := named_type hn (hd d (by simp)) ht
      have hg : Grows s (addDef s .types (nameOr (some m)) (.type t)) := grows_add (fun _ => isName_blank h2)
      have hw : TablesWf cfg junk (addDef s .types (nameOr (some m)) (.type t)) :=
        wf_add hs (fun _ => isName_blank h2) (show _ ∨ _ from .inl ⟨h2, t, rfl, hg.type h3⟩)
      exact Keeps2.trans ⟨hw, hg⟩ (typedefLoop_wf ev tq tn ds _ hw (hg.name hn)
        (fun d h => (hd d (by simp [h])).grow hg))

theorem addHack_wf {N : Str → Prop} {t : CType} {h : HType} (ht : TypeWf N t) (hf : isFnType t = true)
    (he : addHack t = .ok h) : ∃ r ps qs, h = .func r ps qs ∧ TypeWf N r ∧ (∀ p ∈ ps, TypeWf N p.2.1) ∧ qs.length = 2 := by
  unfold isFnType at hf
  unfold addHack at he
  split at hf
  · rename_i ps hps
    rw [hps] at he
    dsimp only at he
    obtain ⟨ms, hms⟩ := List.getLast?_eq_some_iff.1 hps
    have hq := (ht t (.refl t)).quals
    have hb := (ht t (.refl t)).base
    have hl : t.quals.dropLast.length = 1 + t.mods.dropLast.length := by
      simp only [QualsMatch, hms, List.length_append, List.length_cons, List.length_nil] at hq
      simp [hms, hq]; omega
    rw [mkType_some_ok hl] at he
    cases hl' : t.quals.getLast? with
    | none =>
      rw [List.getLast?_eq_none_iff] at hl'
      exfalso
      unfold QualsMatch at hq
      rw [hl', List.length_nil] at hq
      omega
    | some q =>
      simp only [hl', bind, Except.bind] at he
      cases he
      refine ⟨_, _, _, rfl, ?_, ?_, rfl⟩
      · refine typeWf_mk ⟨(ht t (.refl t)).name, hl, ?_, fun m hm => (ht t (.refl t)).mods m (List.dropLast_subset _ hm)⟩
          (fun m hm => typeWf_mods ht m (List.dropLast_subset _ hm))
        intro q hq'
        apply hb q
        have : t.quals.dropLast.head? = some q := hq'
        cases hqq : t.quals with
        | nil => rw [hqq] at this; cases this
        | cons a l =>
          rw [hqq] at this
          cases l with
          | nil => cases this
          | cons b l => simpa using this
      · exact (typeWf_mods ht (.fn ps) (by rw [hms]; simp)).2 ps rfl
  · cases hf

theorem wf_func {s : Store DefVal} (hs : TablesWf cfg junk s) {m : Str} {t : CType} {h : HType} (hm : IsName cfg m)
    (ht : TypeWf (TypeName cfg junk s) t) (hf : isFnType t = true) (he : addHack t = .ok h) :
    Keeps2 cfg junk s (addDef s .functions m (.func h)) := by
  obtain ⟨r, ps, qs, rfl, h1, h2, h3⟩ := addHack_wf ht hf he
  have hg : Grows s (addDef s .functions m (.func (.func r ps qs))) := grows_add (by simp)
  exact ⟨wf_add hs (by simp) ⟨hm, r, ps, qs, rfl, hg.type h1, fun p hp => hg.type (h2 p hp), h3⟩, hg⟩

theorem wf_var {s : Store DefVal} (hs : TablesWf cfg junk s) {m : Str} {t : CType} {v : PVal} (hm : IsName cfg m)
    (ht : TypeWf (TypeName cfg junk s) t) (hf : isFnType t = false) :
    Keeps2 cfg junk s (addDef (addDef s .variables m (.var v t)) .values m (.value v)) := by
  have hg : Grows s (addDef (addDef s .variables m (.var v t)) .values m (.value v)) :=
    (grows_add (by simp)).trans (grows_add (by simp))
  refine ⟨wf_step hs hg fun k' n' v' he => ?_, hg⟩
  rw [defs_addDef] at he
  split at he
  · rename_i hh
    obtain ⟨rfl, rfl⟩ := hh
    cases he
    exact .inr ⟨v, rfl⟩
  · rw [defs_addDef] at he
    split at he
    · rename_i hh
      obtain ⟨rfl, rfl⟩ := hh
      cases he
      refine .inr ⟨hm, dhas_add.2 (.inl ⟨rfl, rfl⟩), v, t, rfl, hg.type ht, fun ps hps => ?_⟩
      simp [isFnType, hps] at hf
    · exact .inl he

theorem varLoop_wf (ev : EvalExpr) (tq : List Str) (tn : Str) (val : PVal) : ∀ (ds : List Decl) (s : Store DefVal),
    TablesWf cfg junk s → TypeName cfg junk s tn → (∀ d ∈ ds, NamedWf cfg junk s d) →
    Keeps2 cfg junk s (varLoop ev tq tn val s ds).1
  | [], s, hs, _, _ => .refl hs
  | d :: ds, s, hs, hn, hd => by
    simp only [varLoop]
    split
    · exact .refl hs
    · rename_i n t ht
      obtain ⟨m, rfl, h2, h3⟩ := named_type hn (hd d (by simp)) ht
      have rest : ∀ {s'}, Keeps2 cfg junk s s' → Keeps2 cfg junk s (varLoop ev tq tn val s' ds).1 := fun hk =>
        hk.trans (varLoop_wf ev tq tn val ds _ hk.1 (hk.2.name hn) (fun d h => (hd d (by simp [h])).grow hk.2))
      split
      · rename_i hf
        split
        · exact .refl hs
        · rename_i e
          exact rest (wf_func hs h2 h3 hf e)
      · rename_i hf
        exact rest (wf_var hs h2 h3 (by simpa using hf))

theorem procFunction_wf (ev : EvalExpr) {s : Store DefVal} (hs : TablesWf cfg junk s) (tq : List Str) {tn : Str} {d : Decl}
    (hn : TypeName cfg junk s tn) (hd : NamedWf cfg junk s d) : Keeps2 cfg junk s (procFunction ev s tq tn d) := by
  simp only [procFunction]
  split
  · exact .refl hs
  · rename_i n t ht
    obtain ⟨m, rfl, h2, h3⟩ := named_type hn hd ht
    split
    · rename_i hf
      split
      · exact .refl hs
      · rename_i e; exact wf_func hs h2 h3 hf e
    · exact .refl hs

/-! ### The grammar -/

/-- Extra types are words. -/
def ExtraWords (cfg : Cfg) : Prop := ∀ w ∈ cfg.extraTypes, ∀ c ∈ w, isWordC c = true

theorem fundWord_words {w : Str} : FundWord cfg w ↔ w ∈ fundWords cfg := by
  rw [fundWord_iff]
  simp only [fundNames, fundWords, baseTypes, List.mem_append]
  grind

theorem keyword_iff {w : Str} : Keyword cfg w ↔ w ∈ keywords cfg := by
  unfold Keyword
  rw [fundWord_words]
  have : w ∈ [c%"struct", c%"enum", c%"union", c%"__stdcall", c%"__cdecl", c%"const", c%"volatile", c%"restrict",
      c%"near", c%"far"] ↔ w ∈ [c%"struct", c%"enum", c%"union", c%"__stdcall", c%"__cdecl"] ++ qualWords := Iff.rfl
  rw [this]
  simp only [fundWords, keywords, List.mem_append]
  grind

theorem keyword_chars (he : ExtraWords cfg) {w : Str} (h : w ∈ keywords cfg) : ∀ c ∈ w, isWordC c = true := by
  rcases keywords_cases h with h | h
  · have := fixedWords_ok w h
    simp only [wordOk, Bool.and_eq_true, List.all_eq_true] at this
    exact this.2
  · exact he w h

theorem takeWhile_sub {p q : Char → Bool} (hpq : ∀ c, p c = true → q c = true) : ∀ (l : Str),
    (∀ c ∈ l.takeWhile q, p c = true) → l.takeWhile p = l.takeWhile q
  | [], _ => rfl
  | c :: l, h => by
    by_cases hq : q c = true
    · rw [List.takeWhile_cons_of_pos hq] at h ⊢
      have hp := h c (by simp)
      rw [List.takeWhile_cons_of_pos hp, takeWhile_sub hpq l (fun d hd => h d (by simp [hd]))]
    · have hp : ¬ p c = true := fun hp => hq (hpq c hp)
      rw [List.takeWhile_cons_of_neg hq, List.takeWhile_cons_of_neg hp]

theorem identP_name (he : ExtraWords cfg) {x y : Pos} {i : Str} (h : identP cfg x = some (i, y)) : IsName cfg i := by
  simp only [identP] at h
  split at h
  · cases h
  · split at h
    · cases h
    · rename_i hk
      split at h
      · rename_i hh
        cases h
        cases hr : x.skip.rest with
        | nil => simp [hr] at hh
        | cons c r =>
          rw [hr] at hh hk
          have hc : isIdentStart c = true := by simpa using hh
          have hc' : c.isAlpha = true ∨ c = '_' := by simpa [isIdentStart] using hc
          have hi : isIdC c = true := by
            rcases hc' with h | h <;> simp [isIdC, isWordC, Char.isAlphanum, h]
          refine ⟨⟨c, r.takeWhile isIdC, by rw [List.takeWhile_cons_of_pos hi], hc'⟩, fun d hd => ?_, fun hkw => ?_⟩
          · have := List.all_eq_true.1 List.all_takeWhile d hd
            simp only [isIdC, isWordC, Bool.or_eq_true, decide_eq_true_eq] at this
            rcases this with (h | h) | h <;> simp [h]
          · rw [keyword_iff] at hkw
            refine hk ?_
            rw [takeWhile_sub (q := isIdC) (fun c h => by simp [isIdC, h]) (c :: r) (keyword_chars he hkw)]
            exact hkw
      · cases h

theorem fundLoop_words : ∀ (n : Nat) (x : Pos), ∀ w ∈ (fundLoop cfg n x).1, w ∈ fundWords cfg
  | 0, _ => by simp [fundLoop]
  | n + 1, x => by
    simp only [fundLoop]
    split
    · rename_i w y e
      intro v hv
      rcases List.mem_cons.1 hv with rfl | hv
      · exact (kwl_mem e)
      · exact fundLoop_words n y v hv
    · simp
where
  kwl_mem {ws : List Str} {x : Pos} {w : Str} {y : Pos} (h : kwl ws x = some (w, y)) : w ∈ ws := by
    simp only [kwl] at h
    split at h
    · cases h
    · split at h
      · cases h; assumption
      · cases h

theorem fundP_name {s : Store DefVal} {x y : Pos} {n : Str} (h : fundP cfg x = some (n, y)) : TypeName cfg junk s n := by
  simp only [fundP] at h
  split at h
  · cases h
  · rename_i w z e
    cases h
    refine .fund _ (by simp) fun v hv => fundWord_words.2 ?_
    rcases List.mem_cons.1 hv with rfl | hv
    · exact fundLoop_words.kwl_mem e
    · exact fundLoop_words _ _ v hv

/-- A parser keeps the tables well-formed, and what it returns satisfies `Q`. -/
def SPWf (cfg : Cfg) (junk : Str → Str) {α : Type} (Q : Store DefVal → α → Prop) (p : SP α) : Prop :=
  ∀ s x, TablesWf cfg junk s → Keeps2 cfg junk s (p s x).1 ∧ ∀ a y, (p s x).2 = some (a, y) → Q (p s x).1 a

/-- The result of a step. -/
theorem SPWf.some {α : Type} {Q : Store DefVal → α → Prop} {p : SP α} (hp : SPWf cfg junk Q p) {s s1 : Store DefVal}
    {x y : Pos} {a : α} (hs : TablesWf cfg junk s) (e : p s x = (s1, .some (a, y))) : Keeps2 cfg junk s s1 ∧ Q s1 a := by
  have := hp s x hs
  rw [e] at this
  exact ⟨this.1, this.2 a y rfl⟩

theorem SPWf.none {α : Type} {Q : Store DefVal → α → Prop} {p : SP α} (hp : SPWf cfg junk Q p) {s s1 : Store DefVal}
    {x : Pos} (hs : TablesWf cfg junk s) (e : p s x = (s1, .none)) : Keeps2 cfg junk s s1 := by
  have := (hp s x hs).1
  rw [e] at this
  exact this

/-- A property of results that stays true when the tables grow. -/
def Stays {α : Type} (Q : Store DefVal → α → Prop) : Prop := ∀ s s' a, Grows s s' → Q s a → Q s' a

theorem commaLoopS_wf {α : Type} {Q : Store DefVal → α → Prop} (hQ : Stays Q) {p : SP α} (hp : SPWf cfg junk Q p) :
    ∀ (n : Nat) (s : Store DefVal) (x : Pos), TablesWf cfg junk s → Keeps2 cfg junk s (commaLoopS p n s x).1 ∧
      ∀ a ∈ (commaLoopS p n s x).2.1, Q (commaLoopS p n s x).1 a
  | 0, s, _, hs => ⟨.refl hs, by simp [commaLoopS]⟩
  | n + 1, s, x, hs => by
    simp only [commaLoopS]
    split
    · exact ⟨.refl hs, by simp⟩
    · rename_i y _
      split
      · rename_i e; exact ⟨hp.none hs e, by simp⟩
      · rename_i s1 a z e
        obtain ⟨h1, h2⟩ := hp.some hs e
        obtain ⟨h3, h4⟩ := commaLoopS_wf hQ hp n s1 z h1.1
        refine ⟨h1.trans h3, fun b hb => ?_⟩
        rcases List.mem_cons.1 hb with rfl | hb
        · exact hQ _ _ _ h3.2 h2
        · exact h4 b hb

theorem delimitedS_wf {α : Type} {Q : Store DefVal → α → Prop} (hQ : Stays Q) {p : SP α} (hp : SPWf cfg junk Q p) :
    SPWf cfg junk (fun s l => ∀ a ∈ l, Q s a) (delimitedS p) := by
  intro s x hs
  simp only [delimitedS]
  split
  · rename_i e; exact ⟨hp.none hs e, fun _ _ h => by cases h⟩
  · rename_i s1 a y e
    obtain ⟨h1, h2⟩ := hp.some hs e
    obtain ⟨h3, h4⟩ := commaLoopS_wf hQ hp y.rest.length s1 y h1.1
    refine ⟨h1.trans h3, fun l z h => ?_⟩
    cases h
    intro b hb
    rcases List.mem_cons.1 hb with rfl | hb
    · exact hQ _ _ _ h3.2 h2
    · exact h4 b hb

/-- Type names, declarators with a name, declarators. -/
structure RecWf (cfg : Cfg) (junk : Str → Str) (r : Rec) : Prop where
  type : SPWf cfg junk (fun s t => TypeName cfg junk s t.2) r.type
  decl : SPWf cfg junk (NamedWf cfg junk) r.decl
  abs : SPWf cfg junk (fun s d => d.Made cfg (TypeName cfg junk s)) r.abs

theorem stays_named : Stays (NamedWf cfg junk) := fun _ _ _ hg h => h.grow hg
theorem stays_made : Stays (fun s (d : Decl) => d.Made cfg (TypeName cfg junk s)) :=
  fun _ _ d hg h => Decl.Made.mono (fun _ => hg.name) d h

/-- An optional list of declarators. -/
theorem declList_wf {r : Rec} (hr : RecWf cfg junk r) {s : Store DefVal} (hs : TablesWf cfg junk s) (x : Pos) :
    Keeps2 cfg junk s (delimitedS r.decl s x).1 ∧
      ∀ d ∈ ((delimitedS r.decl s x).2.getD ([], x)).1, NamedWf cfg junk (delimitedS r.decl s x).1 d := by
  obtain ⟨h1, h2⟩ := delimitedS_wf stays_named hr.decl s x hs
  refine ⟨h1, ?_⟩
  cases h : (delimitedS r.decl s x).2 with
  | none => simp
  | some p => exact h2 p.1 p.2 h

theorem varP_wf {g : Gram} {r : Rec} (hr : RecWf cfg junk r) :
    SPWf cfg junk (fun s v => TypeName cfg junk s v.tn ∧ ∀ d ∈ v.decls, NamedWf cfg junk s d) (varP g r) := by
  intro s x hs
  simp only [varP]
  split
  · rename_i e; exact ⟨hr.type.none hs e, fun _ _ h => by cases h⟩
  · rename_i s1 tq tn y e
    obtain ⟨h1, h2⟩ := hr.type.some hs e
    obtain ⟨h3, h4⟩ := declList_wf hr h1.1 y
    split
    · exact ⟨h1.trans h3, fun _ _ h => by cases h⟩
    · refine ⟨h1.trans h3, fun _ _ h => ?_⟩
      cases h
      exact ⟨h3.2.name h2, h4⟩

theorem bitP_wf {r : Rec} (hr : RecWf cfg junk r) : SPWf cfg junk (MemberDeclWf cfg junk) (bitP r) := by
  intro s x hs
  simp only [bitP, optDecls]
  split
  · rename_i e; exact ⟨hr.type.none hs e, fun _ _ h => by cases h⟩
  · rename_i s1 tq tn y e
    obtain ⟨h1, h2⟩ := hr.type.some hs e
    obtain ⟨h3, h4⟩ := declList_wf hr h1.1 y
    split
    · exact ⟨h1.trans h3, fun _ _ h => by cases h⟩
    · split
      · exact ⟨h1.trans h3, fun _ _ h => by cases h⟩
      · refine ⟨h1.trans h3, fun _ _ h => ?_⟩
        cases h
        exact ⟨h3.2.name h2, h4⟩

theorem methodP_wf {r : Rec} (hr : RecWf cfg junk r) : SPWf cfg junk (fun _ _ => True) (methodP r) := by
  intro s x hs
  simp only [methodP]
  split
  · rename_i e; exact ⟨hr.decl.none hs e, fun _ _ _ => trivial⟩
  · rename_i e; exact ⟨(hr.decl.some hs e).1, fun _ _ _ => trivial⟩

theorem typedMethodP_wf {r : Rec} (hr : RecWf cfg junk r) : SPWf cfg junk (fun _ _ => True) (typedMethodP r) := by
  intro s x hs
  simp only [typedMethodP]
  split
  · rename_i e; exact ⟨hr.type.none hs e, fun _ _ _ => trivial⟩
  · rename_i e
    have h1 := (hr.type.some hs e).1
    exact ⟨h1.trans (methodP_wf hr _ _ h1.1).1, fun _ _ _ => trivial⟩

theorem memberP_wf {g : Gram} {r : Rec} (hr : RecWf cfg junk r) :
    SPWf cfg junk (fun s m => ∀ d ∈ m, MemberDeclWf cfg junk s d) (memberP g r) := by
  intro s x hs
  simp only [memberP]
  split
  · rename_i e
    obtain ⟨h1, h2⟩ := (varP_wf hr).some hs e
    refine ⟨h1, fun m y h => ?_⟩
    cases h
    intro d hd
    cases hd
    exact h2
  · rename_i s1 e
    have h1 := (varP_wf hr).none hs e
    split
    · rename_i e
      obtain ⟨h3, h4⟩ := (bitP_wf hr).some h1.1 e
      refine ⟨h1.trans h3, fun m y h => ?_⟩
      cases h
      intro d hd
      cases hd
      exact h4
    · rename_i s2 e
      have h2 := h1.trans ((bitP_wf hr).none h1.1 e)
      split
      · rename_i e
        refine ⟨h2.trans ((typedMethodP_wf hr).some h2.1 e).1, fun m y h => ?_⟩
        cases h
        intro d hd
        cases hd
      · rename_i s3 e
        have h3 := h2.trans ((typedMethodP_wf hr).none h2.1 e)
        split
        · rename_i e
          refine ⟨h3.trans ((methodP_wf hr).some h3.1 e).1, fun m y h => ?_⟩
          cases h
          intro d hd
          cases hd
        · rename_i e
          exact ⟨h3.trans ((methodP_wf hr).none h3.1 e), fun m y h => by cases h⟩

theorem memberDecl_grow {s s' : Store DefVal} (hg : Grows s s') {m : MemberDecl} (h : MemberDeclWf cfg junk s m) :
    MemberDeclWf cfg junk s' m := ⟨hg.name h.1, fun d hd => (h.2 d hd).grow hg⟩

theorem memberLoop_wf {g : Gram} {r : Rec} (hr : RecWf cfg junk r) : ∀ (n : Nat) (s : Store DefVal) (x : Pos),
    TablesWf cfg junk s → Keeps2 cfg junk s (memberLoop g r n s x).1 ∧
      ∀ m ∈ (memberLoop g r n s x).2.1, MemberDeclWf cfg junk (memberLoop g r n s x).1 m
  | 0, s, _, hs => ⟨.refl hs, by simp [memberLoop]⟩
  | n + 1, s, x, hs => by
    simp only [memberLoop]
    split
    · rename_i e; exact ⟨(memberP_wf hr).none hs e, by simp⟩
    · rename_i s1 m y e
      obtain ⟨h1, h2⟩ := (memberP_wf hr).some hs e
      obtain ⟨h3, h4⟩ := memberLoop_wf (g := g) hr n s1 y h1.1
      refine ⟨h1.trans h3, fun d hd => ?_⟩
      rcases List.mem_append.1 hd with hd | hd
      · exact memberDecl_grow h3.2 (h2 d (by simpa using hd))
      · exact h4 d hd

theorem bodyP_wf {g : Gram} {r : Rec} (hr : RecWf cfg junk r) :
    SPWf cfg junk (fun s ms => ∀ m ∈ ms, MemberDeclWf cfg junk s m) (bodyP g r) := by
  intro s x hs
  simp only [bodyP]
  split
  · exact ⟨.refl hs, fun _ _ h => by cases h⟩
  · rename_i y _
    split
    · rename_i e; exact ⟨(memberP_wf hr).none hs e, fun _ _ h => by cases h⟩
    · rename_i s1 m z e
      obtain ⟨h1, h2⟩ := (memberP_wf hr).some hs e
      obtain ⟨h3, h4⟩ := memberLoop_wf (g := g) hr (z.rest.length + 1) s1 z h1.1
      refine ⟨h1.trans h3, fun ms v h => ?_⟩
      obtain ⟨v', _, hv⟩ := Option.map_eq_some_iff.1 h
      cases hv
      intro d hd
      rcases List.mem_append.1 hd with hd | hd
      · exact memberDecl_grow h3.2 (h2 d (by simpa using hd))
      · exact h4 d hd

theorem structP_wf {g : Gram} (hj : g.junk = junk) {r : Rec} (hr : RecWf cfg junk r) :
    SPWf cfg junk (TypeName cfg junk) (structP g r) := by
  have fin : ∀ (s0 s : Store DefVal) (u : Bool) (name : Option Str) (ms : List MemberDecl) (x v : Pos),
      Keeps2 cfg junk s0 s → (∀ m ∈ ms, MemberDeclWf cfg junk s m) →
      Keeps2 cfg junk s0 (structP.finish g s u name ms x v).1 ∧
        ∀ a y, (structP.finish g s u name ms x v).2 = some (a, y) → TypeName cfg junk (structP.finish g s u name ms x v).1 a := by
    intro s0 s u name ms x v h1 hm
    simp only [structP.finish]
    obtain ⟨h2, h3⟩ := procStruct_wf g.ev h1.1 u name ms (g.pack x.skip.rest.length) hm
    refine ⟨h1.trans h2, fun a y h => ?_⟩
    cases h
    cases e : (procStruct g.ev s u name ms (g.pack x.skip.rest.length)).2 with
    | none => exact hj ▸ .failed _
    | some n => exact h3 n e
  intro s x hs
  simp only [structP]
  split
  · exact ⟨.refl hs, fun _ _ h => by cases h⟩
  · rename_i u y _
    split
    · rename_i e
      obtain ⟨h1, h2⟩ := (bodyP_wf hr).some hs e
      exact fin _ _ _ _ _ _ _ h1 h2
    · rename_i e
      have h1 := (bodyP_wf hr).none hs e
      split
      · exact ⟨h1, fun _ _ h => by cases h⟩
      · exact fin _ _ _ _ _ _ _ h1 (by simp)

theorem enumP_wf {g : Gram} (hj : g.junk = junk) : SPWf cfg junk (TypeName cfg junk) (enumP g) := by
  have fin : ∀ (s : Store DefVal) (name : Option Str) (ms : List (Str × Option Str)) (x v : Pos), TablesWf cfg junk s →
      Keeps2 cfg junk s (enumP.finish g s name ms x v).1 ∧
        ∀ a y, (enumP.finish g s name ms x v).2 = some (a, y) → TypeName cfg junk (enumP.finish g s name ms x v).1 a := by
    intro s name ms x v hs
    simp only [enumP.finish]
    obtain ⟨h2, h3⟩ := procEnum_wf g.ev hs name ms
    refine ⟨h2, fun a y h => ?_⟩
    cases h
    cases e : (procEnum g.ev s name ms).2 with
    | none => exact hj ▸ .failed _
    | some n => exact h3 n e
  intro s x hs
  simp only [enumP]
  split
  · exact ⟨.refl hs, fun _ _ h => by cases h⟩
  · split
    · exact fin _ _ _ _ _ hs
    · split
      · exact ⟨.refl hs, fun _ _ h => by cases h⟩
      · exact fin _ _ _ _ _ hs

theorem typeSpecP_wf {g : Gram} (hc : g.cfg = cfg) (hj : g.junk = junk) (he : ExtraWords cfg) {r : Rec}
    (hr : RecWf cfg junk r) : SPWf cfg junk (fun s t => TypeName cfg junk s t.2) (typeSpecP g r) := by
  subst hc
  have hn : SPWf g.cfg junk (TypeName g.cfg junk) (typeNameP g r) := by
    intro s x hs
    simp only [typeNameP]
    split
    · rename_i p e; exact ⟨.refl hs, fun _ _ h => by cases h; exact fundP_name e⟩
    · split
      · rename_i p e; exact ⟨.refl hs, fun _ _ h => by cases h; exact .ident _ (identP_name he e)⟩
      · split
        · rename_i s1 p e
          obtain ⟨n, y⟩ := p
          obtain ⟨h1, h2⟩ := (structP_wf hj hr).some hs e
          exact ⟨h1, fun _ _ h => by cases h; exact h2⟩
        · rename_i s1 e
          have h1 := (structP_wf hj hr).none hs e
          obtain ⟨h2, h3⟩ := enumP_wf (cfg := g.cfg) hj s1 x h1.1
          exact ⟨h1.trans h2, h3⟩
  intro s x hs
  simp only [typeSpecP]
  split
  · rename_i e; exact ⟨hn.none hs e, fun _ _ h => by cases h⟩
  · rename_i e
    obtain ⟨h1, h2⟩ := hn.some hs e
    exact ⟨h1, fun _ _ h => by cases h; exact h2⟩

/-- A parameter. -/
def ParamWf (cfg : Cfg) (junk : Str → Str) (s : Store DefVal) (p : ParamTok) : Prop :=
  TypeName cfg junk s p.tn ∧ p.d.Made cfg (TypeName cfg junk s)

theorem toArgs_made {s : Store DefVal} : ∀ (ps : List ParamTok), (∀ p ∈ ps, ParamWf cfg junk s p) →
    (toArgs ps).Made cfg (TypeName cfg junk s)
  | [], _ => trivial
  | p :: ps, h => ⟨(h p (by simp)).1, (h p (by simp)).2, toArgs_made ps (fun q hq => h q (by simp [hq]))⟩

theorem argsP_wf {g : Gram} {r : Rec} (hr : RecWf cfg junk r) {dp : SP Decl}
    (hd : SPWf cfg junk (fun s d => d.Made cfg (TypeName cfg junk s)) dp) {s : Store DefVal} (hs : TablesWf cfg junk s)
    (x : Pos) : Keeps2 cfg junk s (argsP g r dp s x).1 ∧
      (argsP g r dp s x).2.1.2.Made cfg (TypeName cfg junk (argsP g r dp s x).1) := by
  have hp : SPWf cfg junk (ParamWf cfg junk) (paramP g r dp) := by
    intro s x hs
    simp only [paramP]
    split
    · rename_i e; exact ⟨hr.type.none hs e, fun _ _ h => by cases h⟩
    · rename_i s1 tq tn y e
      obtain ⟨h1, h2⟩ := hr.type.some hs e
      split
      · rename_i e; exact ⟨h1.trans (hd.none h1.1 e), fun _ _ h => by cases h⟩
      · rename_i e
        obtain ⟨h3, h4⟩ := hd.some h1.1 e
        exact ⟨h1.trans h3, fun _ _ h => by cases h; exact ⟨h3.2.name h2, h4⟩⟩
  have hst : Stays (ParamWf cfg junk) := fun _ _ p hg h => ⟨hg.name h.1, stays_made _ _ _ hg h.2⟩
  simp only [argsP]
  split
  · exact ⟨.refl hs, trivial⟩
  · rename_i y _
    obtain ⟨h1, h2⟩ := delimitedS_wf hst hp s y hs
    split
    · exact ⟨h1, trivial⟩
    · refine ⟨h1, toArgs_made _ ?_⟩
      cases e : (delimitedS (paramP g r dp) s y).2 with
      | none => simp
      | some p => exact h2 p.1 p.2 e

theorem anyDecl_wf {r : Rec} (hr : RecWf cfg junk r) :
    SPWf cfg junk (fun s d => d.Made cfg (TypeName cfg junk s)) (anyDecl r) := by
  intro s x hs
  simp only [anyDecl]
  split
  · rename_i s1 p e
    obtain ⟨d, y⟩ := p
    obtain ⟨h1, h2⟩ := hr.decl.some hs e
    exact ⟨h1, fun _ _ h => by cases h; exact h2.1⟩
  · rename_i s1 e
    have h1 := hr.decl.none hs e
    obtain ⟨h2, h3⟩ := hr.abs s1 x h1.1
    exact ⟨h1.trans h2, h3⟩

theorem convP_real (x : Pos) : ∀ c, (convP x).1 = some c → c = c%"__cdecl" ∨ c = c%"__stdcall" := by
  intro c h
  simp only [convP] at h
  split at h
  · cases h; exact .inl rfl
  · split at h
    · cases h; exact .inr rfl
    · cases h

theorem declP_wf {g : Gram} (hc : g.cfg = cfg) (he : ExtraWords cfg) {r : Rec} (hr : RecWf cfg junk r) :
    SPWf cfg junk (NamedWf cfg junk) (declP g r) := by
  subst hc
  have hcore : SPWf g.cfg junk (fun s c => c.2.Made g.cfg (TypeName g.cfg junk s) ∧ ∃ n, c.2.dname = some n)
      (declCoreP g r) := by
    intro s x hs
    simp only [declCoreP]
    split
    · rename_i p e
      refine ⟨.refl hs, fun c y h => ?_⟩
      cases h
      simp only [declCoreP.refName] at e
      split at e
      · obtain ⟨⟨i, z⟩, h1, h2⟩ := Option.map_eq_some_iff.1 e
        cases h2
        exact ⟨identP_name he h1, i, rfl⟩
      · obtain ⟨⟨i, z⟩, h1, h2⟩ := Option.map_eq_some_iff.1 e
        cases h2
        exact ⟨identP_name he h1, i, rfl⟩
    · split
      · exact ⟨.refl hs, fun _ _ h => by cases h⟩
      · split
        · rename_i e; exact ⟨hr.decl.none hs e, fun _ _ h => by cases h⟩
        · rename_i e
          obtain ⟨h1, h2⟩ := hr.decl.some hs e
          refine ⟨h1, fun c y h => ?_⟩
          obtain ⟨v, _, hv⟩ := Option.map_eq_some_iff.1 h
          cases hv
          exact h2
  intro s x hs
  simp only [declP]
  split
  · rename_i e; exact ⟨hcore.none hs e, fun _ _ h => by cases h⟩
  · rename_i s1 ref core y e
    obtain ⟨h1, h2⟩ := hcore.some hs e
    obtain ⟨h3, h4⟩ := argsP_wf (g := g) hr (anyDecl_wf hr) h1.1 y
    refine ⟨h1.trans h3, fun d z h => ?_⟩
    cases h
    exact ⟨⟨convP_real _, core.made_mono (fun _ => h3.2.name) h2.1, h4⟩, h2.2⟩

theorem absP_wf {g : Gram} {r : Rec} (hr : RecWf cfg junk r) :
    SPWf cfg junk (fun s d => d.Made cfg (TypeName cfg junk s)) (absP g r) := by
  intro s x hs
  simp only [absP]
  obtain ⟨h3, h4⟩ := argsP_wf (g := g) hr hr.abs hs ((lit '&' (ptrLoop g.cfg (qualP g.cfg x).2.rest.length
    (qualP g.cfg x).2).2).getD (ptrLoop g.cfg (qualP g.cfg x).2.rest.length (qualP g.cfg x).2).2)
  refine ⟨h3, fun d z h => ?_⟩
  cases h
  exact ⟨by simp, trivial, h4⟩

theorem gram_wf {g : Gram} (hc : g.cfg = cfg) (hj : g.junk = junk) (he : ExtraWords cfg) : ∀ n, RecWf cfg junk (gram g n)
  | 0 => ⟨fun s _ hs => ⟨.refl hs, fun _ _ h => by cases h⟩, fun s _ hs => ⟨.refl hs, fun _ _ h => by cases h⟩,
      fun s _ hs => ⟨.refl hs, fun _ _ h => by cases h⟩⟩
  | n + 1 => ⟨typeSpecP_wf hc hj he (gram_wf hc hj he n), declP_wf hc he (gram_wf hc hj he n), absP_wf (gram_wf hc hj he n)⟩

theorem topP_wf {g : Gram} {r : Rec} (hr : RecWf cfg junk r) {s : Store DefVal} (hs : TablesWf cfg junk s) (x : Pos) :
    Keeps2 cfg junk s (topP g r s x).1 := by
  have ht : SPWf cfg junk (fun s t => TypeName cfg junk s t.1.2 ∧ ∀ d ∈ t.2, NamedWf cfg junk s d) (typedefP r) := by
    intro s x hs
    simp only [typedefP]
    split
    · exact ⟨.refl hs, fun _ _ h => by cases h⟩
    · split
      · rename_i e; exact ⟨hr.type.none hs e, fun _ _ h => by cases h⟩
      · rename_i s1 t z e
        obtain ⟨h1, h2⟩ := hr.type.some hs e
        split
        · rename_i e; exact ⟨h1.trans ((delimitedS_wf stays_named hr.decl).none h1.1 e), fun _ _ h => by cases h⟩
        · rename_i e
          obtain ⟨h3, h4⟩ := (delimitedS_wf stays_named hr.decl).some h1.1 e
          refine ⟨h1.trans h3, fun a y h => ?_⟩
          obtain ⟨v, _, hv⟩ := Option.map_eq_some_iff.1 h
          cases hv
          exact ⟨h3.2.name h2, h4⟩
  have hf : SPWf cfg junk (fun s t => TypeName cfg junk s t.1.2 ∧ NamedWf cfg junk s t.2) (functionP r) := by
    intro s x hs
    simp only [functionP]
    split
    · rename_i e; exact ⟨hr.type.none hs e, fun _ _ h => by cases h⟩
    · rename_i s1 t z e
      obtain ⟨h1, h2⟩ := hr.type.some hs e
      split
      · rename_i e; exact ⟨h1.trans (hr.decl.none h1.1 e), fun _ _ h => by cases h⟩
      · rename_i e
        obtain ⟨h3, h4⟩ := hr.decl.some h1.1 e
        refine ⟨h1.trans h3, fun a y h => ?_⟩
        obtain ⟨v, _, hv⟩ := Option.map_eq_some_iff.1 h
        cases hv
        exact ⟨h3.2.name h2, h4⟩
  simp only [topP]
  split
  · rename_i s1 tq tn ds y e
    obtain ⟨h1, h2⟩ := ht.some hs e
    have h3 := typedefLoop_wf g.ev tq tn ds s1 h1.1 h2.1 h2.2
    unfold procTypedef
    split
    · rename_i e; rw [e] at h3; exact h1.trans h3
    · rename_i e; rw [e] at h3; exact h1.trans h3
  · rename_i s1 e
    have h1 := ht.none hs e
    split
    · rename_i e
      obtain ⟨h2, h3⟩ := (varP_wf hr).some h1.1 e
      exact h1.trans (h2.trans (varLoop_wf g.ev _ _ _ _ _ h2.1 h3.1 h3.2))
    · rename_i s2 e
      have h2 := h1.trans ((varP_wf hr).none h1.1 e)
      split
      · rename_i e
        obtain ⟨h3, h4⟩ := hf.some h2.1 e
        exact h2.trans (h3.trans (procFunction_wf g.ev h3.1 _ h4.1 h4.2))
      · rename_i e; exact h2.trans (hf.none h2.1 e)

theorem scan_wf {g : Gram} (hc : g.cfg = cfg) (hj : g.junk = junk) (he : ExtraWords cfg) (n : Nat) :
    ∀ (k : Nat) (s : Store DefVal) (x : Pos), TablesWf cfg junk s → Keeps2 cfg junk s (scan g n k s x).1
  | 0, s, _, hs => .refl hs
  | k + 1, s, x, hs => by
    simp only [scan]
    split
    · exact .refl hs
    · have h1 := topP_wf (g := g) (gram_wf hc hj he n) hs x.skip
      split
      · rename_i e; rw [e] at h1; exact h1
      · rename_i e; rw [e] at h1; exact h1.trans (scan_wf hc hj he n k _ _ h1.1)
      · rename_i e; rw [e] at h1; exact h1.trans (scan_wf hc hj he n k _ _ h1.1)

theorem parseDefs_wf {g : Gram} (he : ExtraWords g.cfg) {s : Store DefVal} (hs : TablesWf g.cfg g.junk s) (text : Str) :
    Keeps2 g.cfg g.junk s (parseDefs g s text).1 := scan_wf rfl rfl he _ _ _ _ hs

end

end Pyclib
