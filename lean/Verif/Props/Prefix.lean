import Verif.Spec.Prefix
import Verif.Props.Lib
import Verif.Props.Session
/-!
C77: a library with prefixes is the library without, its names abbreviated.

Full statement: whatever the prefixes, a lookup, call or question with an abbreviated name has the outcome of the full name on a
library without prefixes, in any session.  Proved for names with one completion that is defined, no defined name being
another one with a prefix in front, and `lib(kind, name)` with full names only; outside it is false (`C38_counterexample`,
`C77_counterexample_overlap`).
-/
namespace Pyclib
open Spec

section
variable {O B : Type}

/-- The same library without prefixes. -/
def Lib.bare (l : Lib O B) : Lib O B := { l with prefixes := [] }

/-- `o` is what the tables of objects have for `lib.n`, from the kinds `ks` on. -/
def Cached (l : Lib O B) (objs : Kind → Dict Str (LObj O)) (n : Str) (o : LObj O) : List Kind → Prop
  | [] => False
  | k :: ks =>
    if dhas (l.defs k) n then ∃ o', dget (objs k) n = some o' ∧ (if o'.isNone l.isNull then Cached l objs n o ks else o' = o)
    else Cached l objs n o ks

theorem cached_mono {l : Lib O B} {objs objs' : Kind → Dict Str (LObj O)} (hg : ∀ k n o, dget (objs k) n = some o → dget (objs' k) n = some o)
    {n : Str} {o : LObj O} : ∀ {ks : List Kind}, Cached l objs n o ks → Cached l objs' n o ks := by
  intro ks
  induction ks with
  | nil => exact id
  | cons k ks ih =>
    intro h
    simp only [Cached] at h ⊢
    split
    · rename_i hd
      rw [if_pos hd] at h
      obtain ⟨o', h1, h2⟩ := h
      refine ⟨o', hg k n o' h1, ?_⟩
      split
      · rename_i hn; rw [if_pos hn] at h2; exact ih h2
      · rename_i hn; rw [if_neg hn] at h2; exact h2
    · rename_i hd
      rw [if_neg hd] at h
      exact ih h

theorem cached_defined {l : Lib O B} {objs : Kind → Dict Str (LObj O)} {n : Str} {o : LObj O} : ∀ {ks : List Kind}, Cached l objs n o ks →
    ∃ k ∈ ks, dhas (l.defs k) n = true := by
  intro ks
  induction ks with
  | nil => exact False.elim
  | cons k ks ih =>
    intro h
    simp only [Cached] at h
    split at h
    · rename_i hd; exact ⟨k, by simp, hd⟩
    · obtain ⟨k', h1, h2⟩ := ih h; exact ⟨k', by simp [h1], h2⟩

theorem mem_names {l : Lib O B} {name m : Str} : m ∈ l.names name ↔ m = name ∨ ∃ p ∈ l.prefixes, m = p ++ name := by
  simp only [Lib.names, List.mem_cons, List.mem_map]
  constructor
  · rintro (h | ⟨p, h1, h2⟩)
    · exact .inl h
    · exact .inr ⟨p, h1, h2.symm⟩
  · rintro (h | ⟨p, h1, h2⟩)
    · exact .inl h
    · exact .inr ⟨p, h1, h2.symm⟩

theorem stands_unique {defs : Kind → Dict Str DefVal} {ps : List Str} {name full full' : Str} (h : Stands defs ps name full) (h' : Stands defs ps name full')
    {k : Kind} (hk : k ∈ lookKinds) (hd : dhas (defs k) full = true) : full' = full := by
  by_cases he : full' = full
  · exact he
  · have := h'.2 full h.1 (Ne.symm he) k hk
    rw [hd] at this; cases this

/-- The name found in a table. -/
theorem stands_find {l : Lib O B} {name full : Str} (h : Stands l.defs l.prefixes name full) {k : Kind} (hk : k ∈ lookKinds) :
    (l.names name).find? (fun n => dhas (l.defs k) n) = if dhas (l.defs k) full then some full else none := by
  split
  · rename_i hd
    cases hf : (l.names name).find? (fun n => dhas (l.defs k) n) with
    | none =>
      rw [List.find?_eq_none] at hf
      exact absurd hd (hf full (mem_names.2 h.1))
    | some m =>
      have h1 := List.find?_some hf
      have h2 := List.mem_of_find?_eq_some hf
      by_cases he : m = full
      · rw [he]
      · have := h.2 m (mem_names.1 h2) he k hk
        simp [this] at h1
  · rename_i hd
    rw [List.find?_eq_none]
    intro m hm hd'
    by_cases he : m = full
    · rw [he] at hd'; exact hd hd'
    · have := h.2 m (mem_names.1 hm) he k hk
      simp [this] at hd'

/-- States with prefixes, and without. -/
structure PreRel (l : Lib O B) (st st0 : LState O B) : Prop where
  objs : st.objs = st0.objs
  b : st.b = st0.b
  keys : ∀ k n, dhas (st0.objs k) n = true → k ∈ lookKinds ∧ dhas (l.defs k) n = true
  all : ∀ name o, dget st.all name = some o → ∃ full, Stands l.defs l.prefixes name full ∧ dget st0.all full = some o
  cached : ∀ n o, dget st0.all n = some o → Cached l st0.objs n o lookKinds

theorem rel_init (l : Lib O B) (b : B) : PreRel l (LState.init b) (LState.init b) :=
  ⟨rfl, rfl, by simp [LState.init, dhas], by simp [LState.init], by simp [LState.init]⟩

/-- The backend changes the same way. -/
theorem rel_backend {l : Lib O B} {st st0 : LState O B} (h : PreRel l st st0) (b : B) : PreRel l { st with b := b } { st0 with b := b } :=
  ⟨h.objs, rfl, h.keys, h.all, h.cached⟩

theorem bare_build (l : Lib O B) (k : Kind) (n : Str) (b : B) : l.bare.build k n b = l.build k n b := by
  cases k <;> rfl

theorem call_rel {l : Lib O B} (hn : NoOverlap l.defs l.prefixes) {st st0 : LState O B} (h : PreRel l st st0) {k : Kind} {n : Str}
    (hp : FullName l.defs l.prefixes k n) :
    (l.call st k n).1 = (l.bare.call st0 k n).1 ∧ PreRel l (l.call st k n).2 (l.bare.call st0 k n).2 := by
  have hmake : k ∈ lookKinds → dget (st0.objs k) n = none → l.makeObj st k n = l.bare.makeObj st0 k n ∧
      (∀ o b, l.makeObj st k n = (.ok o, b) → dhas (l.defs k) n = true) := by
    intro hk hc
    have hbare : l.bare.names n = [n] := rfl
    rcases hp with hp | hp | hp
    · exact (hp hk).elim
    · have h1 : (l.names n).any (fun n => dhas (st.objs k) n) = false := by
        rw [List.any_eq_false]
        intro m hm hd
        rw [h.objs] at hd
        rcases mem_names.1 hm with rfl | ⟨p, hp', rfl⟩
        · simp [dhas, hc] at hd
        · have := hn k hk n p hp' hp
          rw [(h.keys k _ hd).2] at this; cases this
      have h2 : l.candidate k n = true := by simp [Lib.candidate, hp]
      have h3 : (l.names n).find? (l.candidate k) = some n := by simp [Lib.names, h2]
      refine ⟨?_, fun _ _ _ => hp⟩
      unfold Lib.makeObj
      rw [h1, h3, hbare]
      have h4 : l.bare.candidate k n = true := h2
      simp [dhas, hc, h4, h.b, bare_build]
    · have h1 : (l.names n).any (fun n => dhas (st.objs k) n) = false := by
        rw [List.any_eq_false]
        intro m hm hd
        rw [h.objs] at hd
        have := (hp m (mem_names.1 hm)).1
        rw [(h.keys k _ hd).2] at this; cases this
      have hc' : ∀ m ∈ l.names n, l.candidate k m = false := by
        intro m hm
        obtain ⟨g1, g2⟩ := hp m (mem_names.1 hm)
        simp only [Lib.candidate, g1, Bool.false_or, Bool.and_eq_false_iff, decide_eq_false_iff_not]
        by_cases hk' : k = .structs ∨ k = .unions ∨ k = .enums
        · exact .inr (g2 hk')
        · exact .inl hk'
      have h3 : (l.names n).find? (l.candidate k) = none := by
        rw [List.find?_eq_none]
        intro m hm; simp [hc' m hm]
      have h4 : l.bare.candidate k n = false := hc' n (by simp [Lib.names])
      have e : l.makeObj st k n = (.error .nameError, st.b) := by
        unfold Lib.makeObj; rw [h1, h3]; rfl
      refine ⟨?_, fun o b ho => ?_⟩
      · rw [e]; unfold Lib.makeObj; rw [hbare]; simp [dhas, hc, h4, h.b]
      · rw [e] at ho; cases ho
  unfold Lib.call
  by_cases hk : k ∈ lookKinds
  · simp only [hk, not_true_eq_false, if_false]
    rw [h.objs]
    cases hc : dget (st0.objs k) n with
    | some o => exact ⟨rfl, h⟩
    | none =>
      obtain ⟨hm, hd⟩ := hmake hk hc
      rw [← hm]
      simp only
      cases hr : l.makeObj st k n with
      | mk r b =>
        cases r with
        | error e => exact ⟨rfl, rfl, rfl, h.keys, h.all, h.cached⟩
        | ok o =>
          refine ⟨rfl, ?_, rfl, ?_, h.all, fun m o' ho' => ?_⟩
          · simp only
          · intro k' n' hh
            simp only at hh
            split at hh
            · rename_i he; subst he
              simp only [dhas, dget_dset] at hh
              split at hh
              · rename_i he'; subst he'; exact ⟨hk, hd o b hr⟩
              · exact h.keys _ n' (by simpa [dhas] using hh)
            · exact h.keys k' n' hh
          · refine cached_mono (fun k' n' o'' h' => ?_) (h.cached m o' ho')
            simp only
            split
            · rename_i he; subst he
              rw [dget_dset]
              split
              · rename_i he'; subst he'; rw [hc] at h'; cases h'
              · exact h'
            · exact h'
  · simp only [hk, not_false_eq_true, if_true]
    exact ⟨trivial, h⟩

theorem attr_rel {l : Lib O B} (hn : NoOverlap l.defs l.prefixes) {name full : Str} (hs : Stands l.defs l.prefixes name full) :
    ∀ (ks : List Kind) {st st0 : LState O B}, (∀ k ∈ ks, k ∈ lookKinds) → PreRel l st st0 →
    (l.attrLoop name st ks).1 = (l.bare.attrLoop full st0 ks).1 ∧ PreRel l (l.attrLoop name st ks).2 (l.bare.attrLoop full st0 ks).2 ∧
    ∀ o, (l.attrLoop name st ks).1 = .ok o → Cached l (l.bare.attrLoop full st0 ks).2.objs full o ks := by
  intro ks
  induction ks with
  | nil => intro st st0 _ h; exact ⟨rfl, h, fun o ho => by cases ho⟩
  | cons k ks ih =>
    intro st st0 hk h
    have hkk := hk k (by simp)
    have hk' : ∀ k ∈ ks, k ∈ lookKinds := fun k' h' => hk k' (by simp [h'])
    unfold Lib.attrLoop
    rw [stands_find hs hkk]
    have hb : (l.bare.names full).find? (fun n => dhas (l.bare.defs k) n) = if dhas (l.defs k) full then some full else none := by
      show [full].find? (fun n => dhas (l.defs k) n) = _
      simp only [List.find?_cons, List.find?_nil]
      cases dhas (l.defs k) full <;> rfl
    rw [hb]
    cases hd : dhas (l.defs k) full with
    | false =>
      simp only [if_false, Cached, hd, Bool.false_eq_true]
      exact ih hk' h
    | true =>
      simp only [if_true, Cached, hd]
      obtain ⟨c1, c2⟩ := call_rel hn h (.inr (.inl hd) : FullName l.defs l.prefixes k full)
      cases hr : l.call st k full with
      | mk r st1 =>
        cases hr0 : l.bare.call st0 k full with
        | mk r0 st1' =>
          rw [hr, hr0] at c1 c2
          simp only at c1 c2
          subst c1
          cases r with
          | error e => exact ⟨rfl, c2, fun o ho => by cases ho⟩
          | ok o =>
            simp only
            have hc := (call_result _ _ _ _ _ _ hr0).2
            have hz : l.bare.isNull = l.isNull := rfl
            rw [hz]
            cases ho : o.isNone l.isNull with
            | true =>
              simp only [if_true]
              obtain ⟨g1, g2, g3⟩ := ih hk' c2
              refine ⟨g1, g2, fun o' ho' => ⟨o, ?_, ?_⟩⟩
              · exact (attrLoop_grows l.bare full ks st1' k full o hc).1
              · rw [if_pos ho]; exact g3 o' ho'
            | false =>
              simp only [Bool.false_eq_true, if_false]
              refine ⟨trivial, c2, fun o' ho' => ⟨o, hc, ?_⟩⟩
              rw [if_neg (by simp [ho])]
              exact Except.ok.inj ho'

/-- A name whose objects are there. -/
theorem cached_loop {l : Lib O B} {name full : Str} (hs : Stands l.defs l.prefixes name full) {st st0 : LState O B} (h : PreRel l st st0) {o : LObj O} :
    ∀ (ks : List Kind), (∀ k ∈ ks, k ∈ lookKinds) → Cached l st0.objs full o ks → l.attrLoop name st ks = (.ok o, st) := by
  intro ks
  induction ks with
  | nil => intro _ h; exact h.elim
  | cons k ks ih =>
    intro hk hc
    have hkk := hk k (by simp)
    have hk' : ∀ k ∈ ks, k ∈ lookKinds := fun k' h' => hk k' (by simp [h'])
    unfold Lib.attrLoop
    rw [stands_find hs hkk]
    simp only [Cached] at hc
    cases hd : dhas (l.defs k) full with
    | false =>
      simp only [hd, Bool.false_eq_true, if_false] at hc ⊢
      exact ih hk' hc
    | true =>
      simp only [hd, if_true] at hc ⊢
      obtain ⟨o', h1, h2⟩ := hc
      rw [call_cached l st k full o' hkk (by rw [h.objs]; exact h1)]
      simp only
      cases ho : o'.isNone l.isNull with
      | true => rw [if_pos ho] at h2; simp only [if_true]; exact ih hk' h2
      | false => rw [if_neg (by simp [ho])] at h2; subst h2; rfl

theorem getattr_rel {l : Lib O B} (hn : NoOverlap l.defs l.prefixes) {name full : Str} (hs : Stands l.defs l.prefixes name full)
    {st st0 : LState O B} (h : PreRel l st st0) :
    (l.getattr st name).1 = (l.bare.getattr st0 full).1 ∧ PreRel l (l.getattr st name).2 (l.bare.getattr st0 full).2 := by
  have addAll : ∀ {st st0 : LState O B} {o : LObj O}, PreRel l st st0 → dget st0.all full = some o →
      PreRel l { st with all := dset st.all name o } st0 := by
    intro st st0 o h ho
    refine ⟨h.objs, h.b, h.keys, fun n' o' h' => ?_, h.cached⟩
    simp only [dget_dset] at h'
    split at h'
    · rename_i he; subst he; cases h'; exact ⟨full, hs, ho⟩
    · exact h.all n' o' h'
  unfold Lib.getattr
  cases ha : dget st.all name with
  | some o =>
    obtain ⟨full', h1, h2⟩ := h.all name o ha
    obtain ⟨k, hk, hd⟩ := cached_defined (h.cached full' o h2)
    cases stands_unique h1 hs hk hd
    simp only [h2]
    exact ⟨trivial, h⟩
  | none =>
    simp only
    cases ha0 : dget st0.all full with
    | some o =>
      rw [cached_loop hs h lookKinds (fun _ h => h) (h.cached full o ha0)]
      exact ⟨rfl, addAll h ha0⟩
    | none =>
      simp only
      obtain ⟨g1, g2, g3⟩ := attr_rel hn hs lookKinds (fun _ h => h) h
      have hall := attrLoop_all l.bare full lookKinds st0
      cases hr : l.attrLoop name st lookKinds with
      | mk r st1 =>
        cases hr0 : l.bare.attrLoop full st0 lookKinds with
        | mk r0 st1' =>
          rw [hr, hr0] at g1 g2
          rw [hr, hr0] at g3
          rw [hr0] at hall
          simp only at g1 g2 g3 hall
          subst g1
          cases r with
          | error e => exact ⟨rfl, g2⟩
          | ok o =>
            refine ⟨rfl, ?_⟩
            have g4 := g3 o rfl
            have : PreRel l st1 { st1' with all := dset st1'.all full o } := by
              refine ⟨g2.objs, g2.b, g2.keys, fun n' o' h' => ?_, fun n' o' h' => ?_⟩
              · obtain ⟨f', e1, e2⟩ := g2.all n' o' h'
                refine ⟨f', e1, ?_⟩
                simp only [dget_dset]
                split
                · rename_i he; subst he; rw [hall, ha0] at e2; cases e2
                · exact e2
              · simp only [dget_dset] at h'
                split at h'
                · rename_i he; subst he; cases h'; exact g4
                · exact g2.cached n' o' h'
            exact addAll this (by simp)

theorem look_rel {l : Lib O B} (hn : NoOverlap l.defs l.prefixes) {q q' : Look} (hq : SameLook l.defs l.prefixes q q') {st st0 : LState O B}
    (h : PreRel l st st0) : (l.look st q).1 = (l.bare.look st0 q').1 ∧ PreRel l (l.look st q).2 (l.bare.look st0 q').2 := by
  cases hq with
  | attr name full hs => exact getattr_rel hn hs h
  | call k n hp => exact call_rel hn h hp

/-- C77 (partial: see above), for every backend: a session with abbreviated names has the outcomes of the session with the full names on the library
without prefixes, and leaves the backend in the same state. -/
theorem C77_lookups_partial (l : Lib O B) (hn : NoOverlap l.defs l.prefixes) (b : B) (qs qs' : List Look)
    (hq : List.Forall₂ (SameLook l.defs l.prefixes) qs qs') :
    (l.session (.init b) qs).1 = ((Lib.bare l).session (.init b) qs').1 ∧
    (l.session (.init b) qs).2.b = ((Lib.bare l).session (.init b) qs').2.b := by
  have key : ∀ {st st0 : LState O B}, PreRel l st st0 → (l.session st qs).1 = (l.bare.session st0 qs').1 ∧
      (l.session st qs).2.b = (l.bare.session st0 qs').2.b := by
    induction hq with
    | nil => intro st st0 h; exact ⟨rfl, h.b⟩
    | cons hq _ ih =>
      intro st st0 h
      obtain ⟨h1, h2⟩ := look_rel hn hq h
      obtain ⟨h3, h4⟩ := ih h2
      exact ⟨by simp only [Lib.session, h1, h3], h4⟩
  exact key (rel_init l b)

end

section
variable {A : Type}

theorem use_rel {l : Lib CtObj CtState} (hn : NoOverlap l.defs l.prefixes) (e : CtEnv) (n : Nat) {u u' : Use A}
    (hu : SameUse l.defs l.prefixes u u') {st st0 : LState CtObj CtState} (h : PreRel l st st0) :
    (useLib e n l st u).1 = (useLib e n l.bare st0 u').1 ∧ PreRel l (useLib e n l st u).2 (useLib e n l.bare st0 u').2 := by
  cases hu with
  | look q q' hq => obtain ⟨h1, h2⟩ := look_rel hn hq h; exact ⟨congrArg Seen.looked h1, h2⟩
  | invoke name full args kws hs =>
    obtain ⟨h1, h2⟩ := getattr_rel hn hs h
    simp only [useLib]
    cases hr : l.getattr st name with
    | mk r st1 =>
      cases hr0 : l.bare.getattr st0 full with
      | mk r0 st1' =>
        rw [hr, hr0] at h1 h2
        simp only at h1 h2
        subst h1
        rcases r with e | (v | d | (c | ⟨x, g⟩))
        · exact ⟨rfl, h2⟩
        · exact ⟨rfl, h2⟩
        · exact ⟨rfl, h2⟩
        · exact ⟨rfl, h2⟩
        · simp only [h2.b]; exact ⟨trivial, rel_backend h2 _⟩
  | argType name full k hs =>
    obtain ⟨h1, h2⟩ := getattr_rel hn hs h
    simp only [useLib]
    cases hr : l.getattr st name with
    | mk r st1 =>
      cases hr0 : l.bare.getattr st0 full with
      | mk r0 st1' =>
        rw [hr, hr0] at h1 h2
        simp only at h1 h2
        subst h1
        rcases r with e | (v | d | (c | ⟨x, g⟩))
        · exact ⟨rfl, h2⟩
        · exact ⟨rfl, h2⟩
        · exact ⟨rfl, h2⟩
        · exact ⟨rfl, h2⟩
        · simp only [h2.b]; exact ⟨trivial, rel_backend h2 _⟩

/-- C77 (partial: see above): the same with calls and questions for argument types. -/
theorem C77_uses_partial (l : Lib CtObj CtState) (hn : NoOverlap l.defs l.prefixes) (e : CtEnv) (n : Nat) (b : CtState) (us us' : List (Use A))
    (hu : List.Forall₂ (SameUse l.defs l.prefixes) us us') :
    (useAll e n l (.init b) us).1 = (useAll e n (Lib.bare l) (.init b) us').1 ∧
    (useAll e n l (.init b) us).2.b = (useAll e n (Lib.bare l) (.init b) us').2.b := by
  have key : ∀ {st st0 : LState CtObj CtState}, PreRel l st st0 → (useAll e n l st us).1 = (useAll e n l.bare st0 us').1 ∧
      (useAll e n l st us).2.b = (useAll e n l.bare st0 us').2.b := by
    induction hu with
    | nil => intro st st0 h; exact ⟨rfl, h.b⟩
    | cons hq _ ih =>
      intro st st0 h
      obtain ⟨h1, h2⟩ := use_rel hn e n hq h
      obtain ⟨h3, h4⟩ := ih h2
      exact ⟨by simp only [useAll, h1, h3], h4⟩
  exact key (rel_init l b)

end

/-! ### Header files -/

theorem sameUse_defs {A : Type} {d d' : Kind → Dict Str DefVal} {ps : List Str} (h : ∀ k n, dhas (d k) n = dhas (d' k) n) {u u' : Use A}
    (hu : SameUse d ps u u') : SameUse d' ps u u' := by
  have hst : ∀ {name full}, Stands d ps name full → Stands d' ps name full := by
    intro name full hs
    exact ⟨hs.1, fun m hm hne k hk => by rw [← h]; exact hs.2 m hm hne k hk⟩
  cases hu with
  | look q q' hq =>
    refine .look _ _ ?_
    cases hq with
    | attr name full hs => exact .attr _ _ (hst hs)
    | call k n hp =>
      refine .call _ _ ?_
      rcases hp with hp | hp | hp
      · exact .inl hp
      · exact .inr (.inl (by rw [← h]; exact hp))
      · exact .inr (.inr (fun m hm => by rw [← h, ← h]; exact hp m hm))
  | invoke name full args kws hs => exact .invoke _ _ _ _ (hst hs)
  | argType name full k hs => exact .argType _ _ _ (hst hs)

/-- C77 (partial: `LibOk`, fair uses with the full names), for a list of header files and a list of prefixes: the outcome of each use with an
abbreviated name is right for the full name. -/
theorem C77_files_partial {A : Type} (w : Setup) (he : ExtraWords w.cfg) (fs : List (Str × Str)) (s : Store DefVal)
    (h : processFiles w Store.empty fs = .ok s) (types : Dict Str Str) (hl : LibOk w.cfg types s) (hT : PtrTable types) (exports : Str → Bool)
    (prefixes : List Str) (hn : NoOverlap s.defs prefixes) :
    ∃ N, ∀ n, N ≤ n → ∀ us us' : List (Use A), List.Forall₂ (SameUse s.defs prefixes) us us' → (∀ u ∈ us', FairUse w.cfg types s u) →
      let r := useAll (hdrEnv w.cfg types s) n { hdrLib w.cfg types s n exports false with prefixes := prefixes } (hdrStart s) us
      r.1.length = us.length ∧
      ∀ (i : Nat) u x, us'[i]? = some u → r.1[i]? = some x → UseRight w.cfg types s exports r.2.b.structs u x := by
  have hs := C69_files w he fs _ s (C69_empty _ _) h
  obtain ⟨N, hN⟩ := C74_files_partial (A := A) w he fs s h types hl hT exports
  refine ⟨N, fun n hn' us us' hu hf => ?_⟩
  intro r
  have hd : ∀ k x, dhas ((hdrLib w.cfg types s n exports false).defs k) x = dhas (s.defs k) x := fun k x => defs_has hs k x n
  obtain ⟨h1, h2⟩ := C77_uses_partial (A := A) { hdrLib w.cfg types s n exports false with prefixes := prefixes }
    (fun k hk x p hp hx => by
      have hx' : dhas ((hdrLib w.cfg types s n exports false).defs k) x = true := hx
      show dhas ((hdrLib w.cfg types s n exports false).defs k) (p ++ x) = false
      rw [hd] at hx' ⊢
      exact hn k hk x p hp hx') (hdrEnv w.cfg types s) n (ctStart (lib s (hdrTypes s)).2.2) us us'
    (hu.imp (fun _ _ hh => sameUse_defs (fun k x => (hd k x).symm) hh))
  obtain ⟨g1, g2⟩ := hN n hn' us' hf
  refine ⟨?_, fun i u x hi hx => ?_⟩
  · have : us.length = us'.length := hu.length_eq
    rw [this, ← g1]
    exact congrArg List.length h1
  · have e : r.2.b = (useAll (hdrEnv w.cfg types s) n (hdrLib w.cfg types s n exports false) (hdrStart s) us').2.b := h2
    rw [e]
    exact g2 i u x hi (by rw [← hx]; exact congrArg (fun l => l[i]?) h1.symm)

/-! ### Examples -/

/-- A check for `NoOverlap`. -/
def noOverlapB (defs : Kind → Dict Str DefVal) (ps : List Str) : Bool :=
  lookKinds.all fun k => (defs k).all fun x => ps.all fun p => !dhas (defs k) (p ++ x.1)

theorem noOverlap_ok {defs : Kind → Dict Str DefVal} {ps : List Str} (h : noOverlapB defs ps = true) : NoOverlap defs ps := by
  intro k hk n p hp hd
  unfold dhas at hd
  cases hx : dget (defs k) n with
  | none => rw [hx] at hd; cases hd
  | some v =>
    have := List.all_eq_true.1 h k hk
    have := List.all_eq_true.1 this (n, v) (dget_some_mem hx)
    have := List.all_eq_true.1 this p hp
    simpa using this

theorem clNoOverlap : NoOverlap clStore.defs [c%"vis"] := noOverlap_ok (by decide +kernel)

theorem clIt : Stands clStore.defs [c%"vis"] c%"it" c%"visit" := by
  have : ∀ k ∈ lookKinds, dhas (clStore.defs k) c%"it" = false := by decide +kernel
  refine ⟨.inr ⟨c%"vis", by simp, rfl⟩, fun m hm hne => ?_⟩
  rcases hm with rfl | ⟨p, hp, rfl⟩
  · exact this
  · simp at hp; subst hp; exact (hne rfl).elim

attribute [local irreducible] clStore

/-- C77 on a header text: with prefix `vis`, `lib.it(cb=None, n=7)` is the call of `visit`, whatever was done before with full or
abbreviated names. -/
theorem C77_example : processFiles exSetup Store.empty [(c%"t.h", clText)] = .ok clStore ∧
    ∃ N, ∀ n, N ≤ n → ∀ us us' : List (Use Nat), List.Forall₂ (SameUse clStore.defs [c%"vis"]) us us' →
      (∀ u ∈ us', FairUse exSetup.cfg ctypesTable clStore u) →
      let r := useAll (hdrEnv exSetup.cfg ctypesTable clStore) n
        { hdrLib exSetup.cfg ctypesTable clStore n (fun _ => true) false with prefixes := [c%"vis"] } (hdrStart clStore)
        (us ++ [.invoke c%"it" [] [(c%"cb", .none), (c%"n", .obj 7)]])
      ∃ o, r.1[us.length]? = some (.invoked o) ∧
        CallRight ctypesTable r.2.b.structs clCs [] [(c%"cb", .none), (c%"n", .obj 7)] o := by
  refine ⟨clFiles, ?_⟩
  obtain ⟨N, h⟩ := C77_files_partial (A := Nat) exSetup (by simp [ExtraWords, exSetup]) _ _ clFiles ctypesTable clLib ptrTable_ctypes (fun _ => true)
    [c%"vis"] clNoOverlap
  refine ⟨N, fun n hn us us' hu hf => ?_⟩
  intro r
  have hfair : FairUse exSetup.cfg ctypesTable clStore (.invoke c%"visit" [] [(c%"cb", .none), (c%"n", .obj 7)] : Use Nat) :=
    .invoke _ clParams clCs _ _ clFairFn (by simp) (by decide)
      (by intro k w h; simp at h; rcases h with ⟨rfl, _⟩ | ⟨rfl, _⟩ <;> simp [clCs]) (fun p hp => .inl (clAgain p hp))
  obtain ⟨g1, g2⟩ := h n hn (us ++ [.invoke c%"it" [] [(c%"cb", .none), (c%"n", .obj 7)]])
    (us' ++ [.invoke c%"visit" [] [(c%"cb", .none), (c%"n", .obj 7)]])
    (List.rel_append hu (.cons (.invoke _ _ _ _ clIt) .nil)) (by
      intro u hm
      rcases List.mem_append.1 hm with hm | hm
      · exact hf u hm
      · simp at hm; subst hm; exact hfair)
  have hlt : us.length < r.1.length := by rw [show r.1.length = _ from g1]; simp
  have hr := g2 us.length (.invoke c%"visit" [] [(c%"cb", .none), (c%"n", .obj 7)]) _ (by simp [hu.length_eq])
    (List.getElem?_eq_getElem hlt)
  rw [List.getElem?_eq_getElem hlt]
  replace hr : UseRight exSetup.cfg ctypesTable clStore (fun _ => true) r.2.b.structs
    (.invoke c%"visit" [] [(c%"cb", .none), (c%"n", .obj 7)]) r.1[us.length] := hr
  generalize r.1[us.length] = x at hr ⊢
  generalize r.2.b.structs = S at hr ⊢
  cases hr with
  | hidden f args kws hx => cases hx
  | invoke f ps cs args kws o hx hd hc =>
    obtain ⟨⟨r', q, e⟩, hd⟩ := hd
    rw [clVisit] at e; cases e
    cases params_unique hd clParamsOk
    exact ⟨o, rfl, hc⟩

/-- C77 fails when one defined name is another one with a prefix: with prefix `p_` and the values `x` and `p_x`, `lib.x` is the value of
`x`, but after `lib.p_x` it raises `NameError`. -/
theorem C77_counterexample_overlap :
    ¬ NoOverlap exLib.defs exLib.prefixes ∧ (exLib.session (.init 0) [.attr c%"x"]).1[0]?.map (·.isOk) = some true ∧
    (exLib.session (.init 0) [.attr c%"p_x", .attr c%"x"]).1[1]? = some (.error .nameError) := by
  refine ⟨fun h => ?_, by rfl, by rfl⟩
  have := h .values (by decide) c%"x" c%"p_" (by simp [exLib]) rfl
  cases this

end Pyclib
