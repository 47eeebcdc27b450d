import Verif.Model.Call
import Verif.Props.Ctypes
/-
C41-C46: calling functions.
-/
namespace Pyclib
open Spec

section
variable {A : Type}

/-! ### Lists -/

theorem listSet_length {α : Type} (l : List α) (i : Nat) (x : α) : (listSet l i x).length = l.length := by
  induction l generalizing i with
  | nil => rfl
  | cons y l ih => cases i <;> simp [listSet, ih]

theorem setSlot_length (l : List (Slot A)) (i : Nat) (x : Slot A) : (setSlot l i x).length = max l.length (i + 1) := by
  unfold setSlot; rw [listSet_length]; simp; omega

theorem setSlot_get (l : List (Slot A)) (i : Nat) (x : Slot A) (j : Nat) :
    (setSlot l i x)[j]? = if j = i then some x else if j < l.length then l[j]? else if j < i then some .missing else none := by
  unfold setSlot
  rw [listSet_get]
  by_cases h : j = i
  · subst h
    rw [if_pos ⟨rfl, by simp; omega⟩, if_pos rfl]
  · rw [if_neg (fun h' => h h'.1.symm), if_neg h]
    by_cases h2 : j < l.length
    · rw [if_pos h2, List.getElem?_append_left h2]
    · rw [if_neg h2, List.getElem?_append_right (by omega), List.getElem?_replicate]
      by_cases h3 : j < i
      · rw [if_pos (by omega), if_pos h3]
      · rw [if_neg (by omega), if_neg h3]

/-! ### Names -/

/-- `k` is the name of parameter number `i`. -/
def NameAt (ps : List Param) (i : Nat) (k : Str) : Prop := ∃ p, ps[i]? = some p ∧ p.1 = some k

/-- Parameter names are distinct. -/
def DistinctNames (ps : List Param) : Prop := ∀ i j k, NameAt ps i k → NameAt ps j k → i = j

theorem argIndexFrom_some (k : Str) (ps : List Param) : ∀ (i j : Nat), argIndexFrom k i ps = some j → ∃ d, j = i + d ∧ NameAt ps d k := by
  induction ps with
  | nil => intro i j h; simp [argIndexFrom] at h
  | cons p ps ih =>
    intro i j h
    simp only [argIndexFrom] at h
    cases hr : argIndexFrom k (i + 1) ps with
    | some j' =>
      rw [hr] at h; simp at h; subst h
      obtain ⟨d, hd, q, hq, hk⟩ := ih _ _ hr
      exact ⟨d + 1, by omega, q, by simpa using hq, hk⟩
    | none =>
      rw [hr] at h
      simp only at h
      split at h
      · cases h; exact ⟨0, rfl, p, rfl, by assumption⟩
      · cases h

theorem argIndexFrom_none (k : Str) (ps : List Param) : ∀ (i : Nat), argIndexFrom k i ps = none ↔ ∀ p ∈ ps, p.1 ≠ some k := by
  induction ps with
  | nil => intro i; simp [argIndexFrom]
  | cons p ps ih =>
    intro i
    simp only [argIndexFrom]
    cases hr : argIndexFrom k (i + 1) ps with
    | some j' =>
      obtain ⟨d, _, q, hq, hk⟩ := argIndexFrom_some _ _ _ _ hr
      simp only [reduceCtorEq, false_iff]
      intro h
      exact h q (List.mem_cons_of_mem _ (List.mem_of_getElem? hq)) hk
    | none =>
      have := (ih (i + 1)).1 hr
      simp only [List.mem_cons, forall_eq_or_imp]
      by_cases hp : p.1 = some k <;> simp [hp]
      exact fun a b c h => this _ h

theorem argIndex_name {f : CFunc} {k : Str} {i : Nat} (h : f.argIndex k = some i) : NameAt f.params i k := by
  obtain ⟨d, rfl, hd⟩ := argIndexFrom_some _ _ _ _ h
  simpa using hd

theorem argIndex_none {f : CFunc} {k : Str} : f.argIndex k = none ↔ ∀ p ∈ f.params, p.1 ≠ some k := argIndexFrom_none _ _ _

theorem argIndex_of_name {f : CFunc} (hd : DistinctNames f.params) {k : Str} {i : Nat} (h : NameAt f.params i k) :
    f.argIndex k = some i := by
  cases ha : f.argIndex k with
  | none =>
    obtain ⟨p, hp, hk⟩ := h
    exact ((argIndex_none.1 ha) p (List.mem_of_getElem? hp) hk).elim
  | some j => rw [hd j i k (argIndex_name ha) h]

theorem argIndex_inj {f : CFunc} {k k' : Str} {i : Nat} (h : f.argIndex k = some i) (h' : f.argIndex k' = some i) : k = k' := by
  obtain ⟨p, hp, hk⟩ := argIndex_name h
  obtain ⟨q, hq, hk'⟩ := argIndex_name h'
  rw [hp] at hq; cases hq
  rw [hk] at hk'; cases hk'; rfl

/-! ### Filling in arguments -/

theorem fillKw_spec (f : CFunc) (kws : List (Str × PyArg A)) : ∀ (l0 : List (Slot A)),
    (kws.map (·.1)).Nodup → (∀ x ∈ kws, f.argIndex x.1 ≠ none) →
    ∃ l, fillKw f l0 kws = .ok l ∧
      (∀ k v i, (k, v) ∈ kws → f.argIndex k = some i → l[i]? = some v.slot) ∧
      (∀ j, (∀ k v, (k, v) ∈ kws → f.argIndex k ≠ some j) →
        l[j]? = if j < l0.length then l0[j]? else if j < l.length then some .missing else none) ∧
      (∀ m, m < l.length ↔ m < l0.length ∨ ∃ k v i, (k, v) ∈ kws ∧ f.argIndex k = some i ∧ m ≤ i) := by
  induction kws with
  | nil =>
    intro l0 _ _
    refine ⟨l0, rfl, by simp, fun j _ => ?_, by simp⟩
    by_cases h : j < l0.length
    · simp [h]
    · simp [h]
  | cons x kws ih =>
    obtain ⟨k, v⟩ := x
    intro l0 hnd hk
    simp only [List.map_cons, List.nodup_cons] at hnd
    obtain ⟨i, hi⟩ : ∃ i, f.argIndex k = some i := by
      have := hk (k, v) (by simp)
      cases h : f.argIndex k with
      | none => exact (this h).elim
      | some i => exact ⟨i, rfl⟩
    obtain ⟨l, h1, h2, h3, h4⟩ := ih (setSlot l0 i v.slot) hnd.2 (fun x hx => hk x (by simp [hx]))
    have hne : ∀ k' v', (k', v') ∈ kws → f.argIndex k' ≠ some i := by
      intro k' v' hm he
      have := argIndex_inj hi he
      subst this
      exact hnd.1 (List.mem_map.2 ⟨_, hm, rfl⟩)
    refine ⟨l, by simp [fillKw, hi, h1], ?_, ?_, ?_⟩
    · intro k' v' i' hm hi'
      rcases List.mem_cons.1 hm with hm | hm
      · cases hm
        rw [hi] at hi'; cases hi'
        rw [h3 i hne, setSlot_length, if_pos (by omega), setSlot_get, if_pos rfl]
      · exact h2 k' v' i' hm hi'
    · intro j hj
      have hji : j ≠ i := fun h => hj k v (by simp) (h ▸ hi)
      rw [h3 j (fun k' v' hm => hj k' v' (by simp [hm])), setSlot_get, setSlot_length, if_neg hji]
      by_cases q1 : j < l0.length
      · rw [if_pos (by omega), if_pos q1, if_pos q1]
      · rw [if_neg q1, if_neg q1]
        by_cases q2 : j < i
        · rw [if_pos (by omega), if_pos q2, if_pos ((h4 j).2 (.inl (by rw [setSlot_length]; omega)))]
        · rw [if_neg (by omega)]
    · intro m
      rw [h4, setSlot_length]
      constructor
      · rintro (h | ⟨k', v', i', hm, hi', hle⟩)
        · by_cases q : m < l0.length
          · exact .inl q
          · exact .inr ⟨k, v, i, by simp, hi, by omega⟩
        · exact .inr ⟨k', v', i', by simp [hm], hi', hle⟩
      · rintro (h | ⟨k', v', i', hm, hi', hle⟩)
        · exact .inl (by omega)
        · rcases List.mem_cons.1 hm with hm | hm
          · cases hm; rw [hi] at hi'; cases hi'; exact .inl (by omega)
          · exact .inr ⟨k', v', i', hm, hi', hle⟩

theorem fillKw_unknown (f : CFunc) (kws : List (Str × PyArg A)) : ∀ (l0 : List (Slot A)),
    (∃ x ∈ kws, f.argIndex x.1 = none) → fillKw f l0 kws = .error .typeError := by
  induction kws with
  | nil => intro l0 h; simp at h
  | cons x kws ih =>
    obtain ⟨k, v⟩ := x
    intro l0 h
    cases hi : f.argIndex k with
    | none => simp [fillKw, hi]
    | some i =>
      simp only [fillKw, hi]
      apply ih
      obtain ⟨y, hy, hn⟩ := h
      rcases List.mem_cons.1 hy with rfl | hy
      · rw [hi] at hn; cases hn
      · exact ⟨y, hy, hn⟩

theorem fillPos_get (f : CFunc) (args : List (PyArg A)) (j : Nat) : (fillPos f args)[j]? =
    if j < args.length then args[j]?.map PyArg.slot else if j < f.req then some .missing else none := by
  unfold fillPos
  by_cases h : j < args.length
  · rw [if_pos h, List.getElem?_append_left (by simpa using h), List.getElem?_map]
  · rw [if_neg h, List.getElem?_append_right (by simp; omega), List.getElem?_replicate]
    simp only [List.length_map]
    by_cases h2 : j < f.req
    · rw [if_pos (by omega), if_pos h2]
    · rw [if_neg (by omega), if_neg h2]

theorem fillPos_length (f : CFunc) (args : List (PyArg A)) : (fillPos f args).length = max args.length f.req := by
  unfold fillPos; simp; omega

/-! ### C41 -/

/-- C41: the order of keyword arguments does not matter. -/
theorem C41_order (e : CtEnv) (n : Nat) (f : CFunc) (found : Except PyErr Unit) (st : CtState) (args : List (PyArg A))
    (kws kws' : List (Str × PyArg A)) (hp : kws.Perm kws') (hn : (kws.map (·.1)).Nodup) :
    callFunc e n f found st args kws = callFunc e n f found st args kws' := by
  have key : fillKw f (fillPos f args) kws = fillKw f (fillPos f args) kws' := by
    by_cases hu : ∃ x ∈ kws, f.argIndex x.1 = none
    · rw [fillKw_unknown f kws _ hu]
      obtain ⟨x, hx, hxn⟩ := hu
      rw [fillKw_unknown f kws' _ ⟨x, hp.subset hx, hxn⟩]
    · have hk : ∀ x ∈ kws, f.argIndex x.1 ≠ none := fun x hx h => hu ⟨x, hx, h⟩
      obtain ⟨l, h1, h2, h3, h4⟩ := fillKw_spec f kws (fillPos f args) hn hk
      obtain ⟨l', h1', h2', h3', h4'⟩ := fillKw_spec f kws' (fillPos f args) ((hp.map _).nodup_iff.1 hn)
        (fun x hx => hk x (hp.symm.subset hx))
      rw [h1, h1']
      congr 1
      have hlen : ∀ m, m < l.length ↔ m < l'.length := by
        intro m
        rw [h4, h4']
        constructor <;> rintro (h | ⟨k, v, i, hm, h⟩)
        · exact .inl h
        · exact .inr ⟨k, v, i, hp.subset hm, h⟩
        · exact .inl h
        · exact .inr ⟨k, v, i, hp.symm.subset hm, h⟩
      apply List.ext_getElem?
      intro j
      by_cases hj : ∃ k v, (k, v) ∈ kws ∧ f.argIndex k = some j
      · obtain ⟨k, v, hm, hi⟩ := hj
        rw [h2 k v j hm hi, h2' k v j (hp.subset hm) hi]
      · rw [h3 j (fun k v hm hi => hj ⟨k, v, hm, hi⟩), h3' j (fun k v hm hi => hj ⟨k, v, hp.symm.subset hm, hi⟩)]
        simp only [hlen]
  unfold callFunc prepare
  rw [key]

/-- C41: giving the arguments from number `a.length` on by keyword, in any order, is the same call as giving
them by position. -/
theorem C41_split (e : CtEnv) (n : Nat) (f : CFunc) (found : Except PyErr Unit) (st : CtState) (hd : DistinctNames f.params)
    (a b : List (PyArg A)) (names : List Str) (hlen : names.length = b.length)
    (hnames : ∀ (j : Nat) (k : Str), names[j]? = some k → NameAt f.params (a.length + j) k)
    (kws : List (Str × PyArg A)) (hp : kws.Perm (names.zip b)) :
    callFunc e n f found st a kws = callFunc e n f found st (a ++ b) [] := by
  have hkn : ((names.zip b).map (·.1)) = names := by
    rw [List.map_fst_zip (by omega)]
  have hnn : names.Nodup := by
    refine List.pairwise_iff_getElem.2 (fun i j hi hj hij h => ?_)
    have h1 := hnames i names[i] (List.getElem?_eq_getElem hi)
    have h2 := hnames j names[j] (List.getElem?_eq_getElem hj)
    rw [h] at h1
    have := hd _ _ _ h1 h2
    omega
  have hnd : (kws.map (·.1)).Nodup := by
    rw [(hp.map (·.1)).nodup_iff, hkn]; exact hnn
  have hidx : ∀ k v, (k, v) ∈ kws → ∃ j, b[j]? = some v ∧ names[j]? = some k ∧ f.argIndex k = some (a.length + j) := by
    intro k v hm
    obtain ⟨j, hj⟩ := List.mem_iff_getElem?.1 (hp.subset hm)
    rw [List.getElem?_zip_eq_some] at hj
    exact ⟨j, hj.2, hj.1, argIndex_of_name hd (hnames j k hj.1)⟩
  have key : fillKw f (fillPos f a) kws = .ok (fillPos f (a ++ b)) := by
    obtain ⟨l, h1, h2, h3, h4⟩ := fillKw_spec f kws (fillPos f a) hnd (by
      rintro ⟨k, v⟩ hm h
      obtain ⟨j, _, _, hj⟩ := hidx k v hm
      simp only at h
      rw [h] at hj; cases hj)
    rw [h1]
    congr 1
    apply List.ext_getElem?
    intro j
    rw [fillPos_get]
    by_cases hja : j < a.length
    · rw [h3 j (by
        intro k v hm hi
        obtain ⟨j', _, _, hj'⟩ := hidx k v hm
        rw [hi] at hj'; cases hj'; omega)]
      rw [fillPos_length, if_pos (by omega), fillPos_get, if_pos hja, if_pos (by simp; omega), List.getElem?_append_left hja]
    · by_cases hjb : j < a.length + b.length
      · have hj' : b[j - a.length]? = some b[j - a.length] := List.getElem?_eq_getElem (by omega)
        have hn' : names[j - a.length]? = some names[j - a.length] := List.getElem?_eq_getElem (by omega)
        have hi := argIndex_of_name hd (hnames _ _ hn')
        rw [show a.length + (j - a.length) = j by omega] at hi
        have hm : (names[j - a.length], b[j - a.length]) ∈ kws := by
          refine hp.symm.subset (List.mem_iff_getElem?.2 ⟨j - a.length, ?_⟩)
          rw [List.getElem?_zip_eq_some]; exact ⟨hn', hj'⟩
        rw [h2 _ _ _ hm hi, if_pos (by simp; omega), List.getElem?_append_right (by omega), hj']
        rfl
      · have hno : ∀ k v, (k, v) ∈ kws → f.argIndex k ≠ some j := by
          intro k v hm hi
          obtain ⟨j', hb, _, hj'⟩ := hidx k v hm
          rw [hi] at hj'; cases hj'
          have := (List.getElem?_eq_some_iff.1 hb).1
          omega
        rw [h3 j hno, fillPos_length]
        have hab : ¬ j < (a ++ b).length := by simp; omega
        rw [if_neg hab]
        by_cases hjr : j < f.req
        · rw [if_pos (by omega), if_pos hjr, fillPos_get, if_neg hja, if_pos hjr]
        · rw [if_neg (by omega), if_neg hjr, if_neg]
          intro hjl
          rcases (h4 j).1 hjl with h | ⟨k, v, i, hm, hi, hle⟩
          · rw [fillPos_length] at h; omega
          · obtain ⟨j', hb, _, hj'⟩ := hidx k v hm
            rw [hi] at hj'; cases hj'
            have := (List.getElem?_eq_some_iff.1 hb).1
            omega
  unfold callFunc prepare
  rw [key]
  rfl

/-- C41: an unknown keyword raises `TypeError`; the C function is not called and nothing changes. -/
theorem C41_unknown (e : CtEnv) (n : Nat) (f : CFunc) (found : Except PyErr Unit) (st : CtState) (args : List (PyArg A))
    (kws : List (Str × PyArg A)) (k : Str) (v : PyArg A) (hm : (k, v) ∈ kws) (hk : ∀ p ∈ f.params, p.1 ≠ some k) :
    callFunc e n f found st args kws = (.raised .typeError, st) := by
  unfold callFunc prepare
  rw [fillKw_unknown f kws _ ⟨(k, v), hm, argIndex_none.2 hk⟩]

/-! ### Completing arguments -/

/-- A one- or two-level pointer. -/
def ShortPtr (r : CType) : Prop := r.mods = [.sym c%"*"] ∨ r.mods = [.sym c%"*", .sym c%"*"]

theorem getPointer_short {e : CtEnv} {n : Nat} {st : CtState} {r t : CType} {x : Except PyErr Cls × CtState}
    (h : getPointer e n st r t = x) :
    (ShortPtr r ∧ (∀ y, x.1 = .error y → (getBase e n st t).1 = .error y)) ∨
    (¬ ShortPtr r ∧ (x.1 = .error .typeError ∨ x.1 = .error .assertionError) ∧ x.2 = st) := by
  unfold getPointer at h
  by_cases h1 : r.mods.length = 0 ∨ r.mods.length > 2
  · rw [if_pos h1] at h
    subst h
    refine .inr ⟨?_, .inr rfl, rfl⟩
    rintro (h | h) <;> (rw [h] at h1; simp at h1)
  · rw [if_neg h1] at h
    split at h
    · rename_i h2
      subst h
      refine .inr ⟨?_, .inl rfl, rfl⟩
      rintro (h | h) <;> (rw [h] at h2; simp at h2)
    · split at h
      · rename_i h3
        left
        constructor
        · simp only [List.all_eq_true] at h3
          match hm : r.mods, h1 with
          | [], h1 => simp at h1
          | [m], _ =>
            have := h3 m (by rw [hm]; simp)
            cases m with
            | sym s => simp at this; subst this; exact .inl hm
            | arr d => cases this
            | fn ps => cases this
          | [m, m'], _ =>
            have q1 := h3 m (by rw [hm]; simp)
            have q2 := h3 m' (by rw [hm]; simp)
            cases m with
            | sym s =>
              cases m' with
              | sym s' => simp at q1 q2; subst q1; subst q2; exact .inr hm
              | arr d => cases q2
              | fn ps => cases q2
            | arr d => cases q1
            | fn ps => cases q1
          | _ :: _ :: _ :: _, h1 => simp at h1
        · intro y hy
          cases hb : getBase e n st t with
          | mk r1 st1 =>
            rw [hb] at h
            cases r1 with
            | error z => subst h; simpa using hy
            | ok c =>
              simp only at h
              cases hs : getPointer.special c with
              | some p => rw [hs] at h; subst h; simp at hy
              | none => rw [hs] at h; subst h; simp at hy
      · rename_i h3
        subst h
        refine .inr ⟨?_, .inr rfl, rfl⟩
        rintro (h | h) <;> (rw [h] at h3; simp at h3)

/-- The outcome for one argument. -/
inductive Completes (e : CtEnv) (n : Nat) (f : CFunc) (st : CtState) (i : Nat) : Slot A → Passed A → Prop
  | obj (a : A) : Completes e n f st i (.obj a) (.obj a)
  | null (p : Param) (r : CType) (c : Cls) (hp : f.params[i]? = some p) (hr : evalType e.cfg e.tm p.2.1 = .ok r)
      (hm : r.mods ≠ []) (hc : (getType e n st p.2.1).1 = .ok c) : Completes e n f st i .null (.nul c)
  | auto (p : Param) (r : CType) (c : Cls) (hp : f.params[i]? = some p) (hr : evalType e.cfg e.tm p.2.1 = .ok r)
      (hm : ShortPtr r) (hc : (getPointer e n st r p.2.1).1 = .ok c) : Completes e n f st i .missing (.auto c)

theorem completeArg_ok {e : CtEnv} {n : Nat} {f : CFunc} {st : CtState} {i : Nat} {s : Slot A} {a : Passed A}
    (h : (completeArg e n f st i s).1 = .ok a) : Completes e n f st i s a := by
  cases s with
  | obj b => simp [completeArg] at h; subst h; exact .obj b
  | null =>
    simp only [completeArg] at h
    cases hp : f.params[i]? with
    | none => simp [hp] at h
    | some p =>
      simp only [hp] at h
      cases hr : evalType e.cfg e.tm p.2.1 with
      | error x => simp [hr] at h
      | ok r =>
        simp only [hr] at h
        split at h
        · simp at h
        · rename_i hm
          cases hg : getType e n st p.2.1 with
          | mk res st1 =>
            rw [hg] at h
            cases res with
            | error x => simp at h
            | ok c => simp at h; subst h; exact .null p r c hp hr hm (by rw [hg])
  | missing =>
    simp only [completeArg] at h
    cases hp : f.params[i]? with
    | none => simp [hp] at h
    | some p =>
      simp only [hp] at h
      cases hr : evalType e.cfg e.tm p.2.1 with
      | error x => simp [hr] at h
      | ok r =>
        simp only [hr] at h
        cases hg : getPointer e n st r p.2.1 with
        | mk res st1 =>
          rw [hg] at h
          cases res with
          | error x => simp at h
          | ok c =>
            simp at h; subst h
            rcases getPointer_short hg with ⟨q, _⟩ | ⟨_, q | q, _⟩
            · exact .auto p r c hp hr q (by rw [hg])
            · simp at q
            · simp at q

theorem complete_ok {e : CtEnv} {n : Nat} {f : CFunc} (l : List (Slot A)) : ∀ {st st' : CtState} {i : Nat}
    {as : List (Passed A)} {g : List Nat}, complete e n f st i l = (.ok (as, g), st') →
    as.length = l.length ∧ g.Pairwise (· < ·) ∧ (∀ k ∈ g, i ≤ k ∧ k < i + l.length) ∧
    ∀ (j : Nat) (s : Slot A), l[j]? = some s → ∃ st1 a, as[j]? = some a ∧ Completes e n f st1 (i + j) s a ∧
      (i + j ∈ g ↔ ∃ c, a = .auto c) := by
  induction l with
  | nil =>
    intro st st' i as g h
    simp [complete] at h
    obtain ⟨⟨rfl, rfl⟩, _⟩ := h
    simp
  | cons s l ih =>
    intro st st' i as g h
    simp only [complete] at h
    cases hc : completeArg e n f st i s with
    | mk r1 st1 =>
      rw [hc] at h
      cases r1 with
      | error x => simp at h
      | ok a =>
        simp only at h
        cases hr : complete e n f st1 (i + 1) l with
        | mk r2 st2 =>
          rw [hr] at h
          cases r2 with
          | error x => simp at h
          | ok ag =>
            obtain ⟨as', g'⟩ := ag
            simp only [Prod.mk.injEq, Except.ok.injEq] at h
            obtain ⟨⟨rfl, hg⟩, _⟩ := h
            obtain ⟨h1, h2, h3, h4⟩ := ih hr
            have hok := completeArg_ok (by rw [hc] : (completeArg e n f st i s).1 = .ok a)
            have hi : i ∉ g' := fun hi => by have := (h3 i hi).1; omega
            have hgm : ∀ k, k ∈ g ↔ (k = i ∧ ∃ c, a = .auto c) ∨ k ∈ g' := by
              intro k
              rw [← hg]
              cases a <;> simp
            refine ⟨by simp [h1], ?_, ?_, ?_⟩
            · rw [← hg]
              cases a with
              | auto c =>
                simp only [List.pairwise_cons]
                exact ⟨fun k hk => by have := (h3 k hk).1; omega, h2⟩
              | _ => exact h2
            · intro k hk
              rcases (hgm k).1 hk with ⟨rfl, _⟩ | hk
              · simp
              · have := h3 k hk; simp; omega
            · intro j s' hs'
              cases j with
              | zero =>
                simp at hs'; subst hs'
                refine ⟨st, a, rfl, hok, ?_⟩
                rw [Nat.add_zero, hgm]
                simp [hi]
              | succ j =>
                obtain ⟨st3, b, q1, q2, q3⟩ := h4 j s' (by simpa using hs')
                refine ⟨st3, b, by simpa using q1, by rw [show i + (j + 1) = i + 1 + j by omega]; exact q2, ?_⟩
                rw [hgm, ← q3, show i + (j + 1) = i + 1 + j by omega]
                have : ¬ (i + 1 + j = i) := by omega
                simp only [this, false_and, false_or]

/-- Everything the backend needs for the parameters succeeds. -/
structure TypesFine (e : CtEnv) (n : Nat) (f : CFunc) : Prop where
  eval : ∀ p ∈ f.params, ∃ r, evalType e.cfg e.tm p.2.1 = .ok r
  type : ∀ p ∈ f.params, ∀ st, ∃ c, (getType e n st p.2.1).1 = .ok c
  base : ∀ p ∈ f.params, ∀ st, ∃ c, (getBase e n st p.2.1).1 = .ok c

theorem completeArg_err {e : CtEnv} {n : Nat} {f : CFunc} (hf : TypesFine e n f) {st : CtState} {i : Nat} (hi : i < f.params.length)
    {s : Slot A} {x : PyErr} (h : (completeArg e n f st i s).1 = .error x) : x = .typeError := by
  have hp : f.params[i]? = some f.params[i] := List.getElem?_eq_getElem hi
  have hmem : f.params[i] ∈ f.params := List.getElem_mem hi
  obtain ⟨r, hr⟩ := hf.eval _ hmem
  cases s with
  | obj b => simp [completeArg] at h
  | null =>
    simp only [completeArg, hp, hr] at h
    split at h
    · simpa using h.symm
    · obtain ⟨c, hc⟩ := hf.type _ hmem st
      cases hg : getType e n st f.params[i].2.1 with
      | mk res st1 =>
        rw [hg] at hc h
        simp only at hc
        subst hc
        simp at h
  | missing =>
    simp only [completeArg, hp, hr] at h
    obtain ⟨c, hc⟩ := hf.base _ hmem st
    cases hg : getPointer e n st r f.params[i].2.1 with
    | mk res st1 =>
      rw [hg] at h
      cases res with
      | ok c => simp at h
      | error y =>
        simp at h
        rcases getPointer_short hg with ⟨_, q⟩ | ⟨_, q | q, _⟩
        · rw [hc] at q; have := q y rfl; cases this
        · simp at q; subst q; exact h.symm
        · simp at q; subst q; exact h.symm

theorem complete_err {e : CtEnv} {n : Nat} {f : CFunc} (hf : TypesFine e n f) (l : List (Slot A)) : ∀ {st : CtState} {i : Nat} {x : PyErr},
    i + l.length ≤ f.params.length → (complete e n f st i l).1 = .error x → x = .typeError := by
  induction l with
  | nil => intro st i x _ h; simp [complete] at h
  | cons s l ih =>
    intro st i x hl h
    simp only [complete] at h
    cases hc : completeArg e n f st i s with
    | mk r1 st1 =>
      rw [hc] at h
      cases r1 with
      | error y =>
        simp at h; subst h
        exact completeArg_err (s := s) (st := st) hf (i := i) (by simp at hl; omega) (by rw [hc])
      | ok a =>
        simp only at h
        cases hr : complete e n f st1 (i + 1) l with
        | mk r2 st2 =>
          rw [hr] at h
          cases r2 with
          | error y =>
            simp at h; subst h
            exact ih (st := st1) (i := i + 1) (by simp at hl; omega) (by rw [hr])
          | ok ag => simp at h

/-! ### C42, C43 -/

/-- The caller gave `v` for parameter number `i`, by keyword or by position (a keyword wins). -/
def Given (f : CFunc) (args : List (PyArg A)) (kws : List (Str × PyArg A)) (i : Nat) (v : PyArg A) : Prop :=
  (∃ k, (k, v) ∈ kws ∧ NameAt f.params i k) ∨ ((∀ k w, (k, w) ∈ kws → ¬ NameAt f.params i k) ∧ args[i]? = some v)

/-- The caller gave nothing for parameter number `i`. -/
def Omitted (f : CFunc) (args : List (PyArg A)) (kws : List (Str × PyArg A)) (i : Nat) : Prop :=
  (∀ k w, (k, w) ∈ kws → ¬ NameAt f.params i k) ∧ args.length ≤ i

/-- A plain C function: no default values, distinct names. -/
structure PlainC (f : CFunc) : Prop where
  names : DistinctNames f.params
  required : ∀ p ∈ f.params, p.2.2 = none

/-- A call without too many arguments, and with keywords that exist. -/
structure FairCall (f : CFunc) (args : List (PyArg A)) (kws : List (Str × PyArg A)) : Prop where
  few : args.length ≤ f.params.length
  keys : (kws.map (·.1)).Nodup
  known : ∀ k v, (k, v) ∈ kws → ∃ i, NameAt f.params i k

theorem nameAt_lt {ps : List Param} {i : Nat} {k : Str} (h : NameAt ps i k) : i < ps.length := by
  obtain ⟨p, hp, _⟩ := h
  exact (List.getElem?_eq_some_iff.1 hp).1

theorem filled {f : CFunc} (hf : PlainC f) {args : List (PyArg A)} {kws : List (Str × PyArg A)} (hc : FairCall f args kws) :
    ∃ l, fillKw f (fillPos f args) kws = .ok l ∧ l.length = f.params.length ∧
      (∀ i v, Given f args kws i v → i < f.params.length → l[i]? = some v.slot) ∧
      (∀ i, Omitted f args kws i → i < f.params.length → l[i]? = some .missing) := by
  have hreq : f.req = f.params.length := by
    unfold CFunc.req
    congr 1
    rw [List.filter_eq_self]
    intro p hp
    rw [hf.required p hp]; rfl
  obtain ⟨l, h1, h2, h3, h4⟩ := fillKw_spec f kws (fillPos f args) hc.keys (by
    rintro ⟨k, v⟩ hm h
    obtain ⟨i, p, hp, hk⟩ := hc.known k v hm
    exact argIndex_none.1 h p (List.mem_of_getElem? hp) hk)
  have hlen0 : (fillPos f args).length = f.params.length := by rw [fillPos_length, hreq]; have := hc.few; omega
  have hlen : l.length = f.params.length := by
    have key : ∀ m, m < l.length ↔ m < f.params.length := by
      intro m
      rw [h4, hlen0]
      constructor
      · rintro (h | ⟨k, v, i, _, hi, hle⟩)
        · exact h
        · have := nameAt_lt (argIndex_name hi); omega
      · exact .inl
    have a1 := key l.length
    have a2 := key f.params.length
    omega
  refine ⟨l, h1, hlen, ?_, ?_⟩
  · rintro i v (⟨k, hm, hk⟩ | ⟨hno, ha⟩) hi
    · exact h2 k v i hm (argIndex_of_name hf.names hk)
    · rw [h3 i (fun k w hm h => hno k w hm (argIndex_name h)), hlen0, if_pos hi, fillPos_get,
        if_pos (List.getElem?_eq_some_iff.1 ha).1, ha]
      rfl
  · rintro i ⟨hno, ha⟩ hi
    rw [h3 i (fun k w hm h => hno k w hm (argIndex_name h)), hlen0, if_pos hi, fillPos_get, if_neg (by omega), hreq, if_pos hi]

theorem given_or_omitted (f : CFunc) (args : List (PyArg A)) (kws : List (Str × PyArg A)) (i : Nat) :
    (∃ v, Given f args kws i v) ∨ Omitted f args kws i := by
  by_cases hk : ∃ k v, (k, v) ∈ kws ∧ NameAt f.params i k
  · obtain ⟨k, v, hm, hn⟩ := hk
    exact .inl ⟨v, .inl ⟨k, hm, hn⟩⟩
  · have hno : ∀ k w, (k, w) ∈ kws → ¬ NameAt f.params i k := fun k w hm hn => hk ⟨k, w, hm, hn⟩
    by_cases ha : i < args.length
    · exact .inl ⟨args[i], .inr ⟨hno, List.getElem?_eq_getElem ha⟩⟩
    · exact .inr ⟨hno, by omega⟩

/-- C42: if the C function is reached, it gets one argument per parameter; the auto-generated ones are exactly
the omitted ones, listed in order; each of them has a type that is a one- or two-level pointer, and is the
object `_get_pointer` makes; the objects the caller gave are passed on. -/
theorem C42_exact (e : CtEnv) (n : Nat) (f : CFunc) (hf : PlainC f) (found : Except PyErr Unit) (st st' : CtState)
    (args : List (PyArg A)) (kws : List (Str × PyArg A)) (hc : FairCall f args kws) (as : List (Passed A)) (g : List Nat)
    (h : callFunc e n f found st args kws = (.called as g, st')) :
    as.length = f.params.length ∧ g.Pairwise (· < ·) ∧ (∀ i, i ∈ g ↔ i < f.params.length ∧ Omitted f args kws i) ∧
    (∀ i p, f.params[i]? = some p → Omitted f args kws i → ∃ r c st1, evalType e.cfg e.tm p.2.1 = .ok r ∧ ShortPtr r ∧
      (getPointer e n st1 r p.2.1).1 = .ok c ∧ as[i]? = some (.auto c)) ∧
    (∀ i a, i < f.params.length → Given f args kws i (.obj a) → as[i]? = some (.obj a)) := by
  obtain ⟨l, h1, h2, h3, h4⟩ := filled hf hc
  unfold callFunc prepare at h
  rw [h1] at h
  simp only at h
  cases hcm : complete e n f st 0 l with
  | mk r1 st1 =>
    rw [hcm] at h
    cases r1 with
    | error x => simp at h
    | ok ag =>
      obtain ⟨as1, g1⟩ := ag
      simp only at h
      split at h
      · simp at h
      · simp at h
        obtain ⟨⟨rfl, rfl⟩, _⟩ := h
        obtain ⟨q1, q2, q3, q4⟩ := complete_ok l hcm
        refine ⟨by rw [q1, h2], q2, fun i => ?_, fun i p hp ho => ?_, fun i a hi hg => ?_⟩
        · constructor
          · intro hi
            have hlt := (q3 i hi).2
            rw [Nat.zero_add, h2] at hlt
            refine ⟨hlt, ?_⟩
            rcases given_or_omitted f args kws i with ⟨v, hv⟩ | ho
            · obtain ⟨st2, a, r1, r2, r3⟩ := q4 i _ (h3 i v hv hlt)
              rw [Nat.zero_add] at r3
              obtain ⟨c, rfl⟩ := r3.1 hi
              generalize hs : v.slot = s at r2
              cases r2
              cases v <;> cases hs
            · exact ho
          · rintro ⟨hlt, ho⟩
            obtain ⟨st2, a, r1, r2, r3⟩ := q4 i _ (h4 i ho hlt)
            rw [Nat.zero_add] at r3
            cases r2
            exact r3.2 ⟨_, rfl⟩
        · obtain ⟨st2, a, r1, r2, r3⟩ := q4 i _ (h4 i ho (List.getElem?_eq_some_iff.1 hp).1)
          rw [Nat.zero_add] at r2
          cases r2 with
          | auto p' r c hp' hr hm hgc =>
            rw [hp] at hp'; cases hp'
            exact ⟨r, c, st2, hr, hm, hgc, r1⟩
        · obtain ⟨st2, a', r1, r2, r3⟩ := q4 i _ (h3 i _ hg hi)
          generalize hs : (PyArg.obj a).slot = s at r2
          cases r2 with
          | obj b => cases hs; exact r1
          | _ => cases hs

/-- C42: if an omitted argument is not a one- or two-level pointer, the call raises `TypeError` and the C
function is not called (provided the types of the parameters can be built at all). -/
theorem C42_raises (e : CtEnv) (n : Nat) (f : CFunc) (hf : PlainC f) (ht : TypesFine e n f) (found : Except PyErr Unit) (st : CtState)
    (args : List (PyArg A)) (kws : List (Str × PyArg A)) (hc : FairCall f args kws) (i : Nat) (p : Param) (r : CType)
    (hp : f.params[i]? = some p) (ho : Omitted f args kws i) (hr : evalType e.cfg e.tm p.2.1 = .ok r) (hs : ¬ ShortPtr r) :
    (callFunc e n f found st args kws).1 = .raised .typeError := by
  obtain ⟨l, h1, h2, h3, h4⟩ := filled hf hc
  unfold callFunc prepare
  rw [h1]
  simp only
  cases hcm : complete e n f st 0 l with
  | mk r1 st1 =>
    cases r1 with
    | error x =>
      have := complete_err ht l (st := st) (i := 0) (x := x) (by omega) (by rw [hcm])
      subst this
      rfl
    | ok ag =>
      obtain ⟨as1, g1⟩ := ag
      obtain ⟨_, _, _, q4⟩ := complete_ok l hcm
      obtain ⟨st2, a, r1, r2, r3⟩ := q4 i _ (h4 i ho (List.getElem?_eq_some_iff.1 hp).1)
      rw [Nat.zero_add] at r2
      cases r2 with
      | auto p' r' c hp' hr' hm hgc =>
        rw [hp] at hp'; cases hp'
        rw [hr] at hr'; cases hr'
        exact (hs hm).elim

/-- C43: `None` (or `lib.Null`) gives an instance of the class of the declared type made without arguments,
which must have a modifier; it is not auto-generated. -/
theorem C43_null (e : CtEnv) (n : Nat) (f : CFunc) (hf : PlainC f) (found : Except PyErr Unit) (st st' : CtState)
    (args : List (PyArg A)) (kws : List (Str × PyArg A)) (hc : FairCall f args kws) (as : List (Passed A)) (g : List Nat)
    (h : callFunc e n f found st args kws = (.called as g, st')) (i : Nat) (p : Param) (v : PyArg A) (hv : v = .none ∨ v = .null)
    (hp : f.params[i]? = some p) (hg : Given f args kws i v) :
    i ∉ g ∧ ∃ r c st1, evalType e.cfg e.tm p.2.1 = .ok r ∧ r.mods ≠ [] ∧ (getType e n st1 p.2.1).1 = .ok c ∧ as[i]? = some (.nul c) := by
  obtain ⟨l, h1, h2, h3, h4⟩ := filled hf hc
  have hi := (List.getElem?_eq_some_iff.1 hp).1
  unfold callFunc prepare at h
  rw [h1] at h
  simp only at h
  cases hcm : complete e n f st 0 l with
  | mk r1 st1 =>
    rw [hcm] at h
    cases r1 with
    | error x => simp at h
    | ok ag =>
      obtain ⟨as1, g1⟩ := ag
      simp only at h
      split at h
      · simp at h
      · simp at h
        obtain ⟨⟨rfl, rfl⟩, _⟩ := h
        obtain ⟨q1, q2, q3, q4⟩ := complete_ok l hcm
        obtain ⟨st2, a, r1, r2, r3⟩ := q4 i _ (h3 i _ hg hi)
        rw [Nat.zero_add] at r2 r3
        have hs : v.slot = .null := by rcases hv with rfl | rfl <;> rfl
        rw [hs] at r2
        cases r2 with
        | null p' r c hp' hr hm hgc =>
          rw [hp] at hp'; cases hp'
          exact ⟨fun hm => (by obtain ⟨c, hc⟩ := r3.1 hm; cases hc), r, c, st2, hr, hm, hgc, r1⟩

/-- C43: `None` for a parameter that is not a pointer (no modifier at all) raises `TypeError`; the C function
is not called. -/
theorem C43_raises (e : CtEnv) (n : Nat) (f : CFunc) (hf : PlainC f) (ht : TypesFine e n f) (found : Except PyErr Unit) (st : CtState)
    (args : List (PyArg A)) (kws : List (Str × PyArg A)) (hc : FairCall f args kws) (i : Nat) (p : Param) (r : CType) (v : PyArg A)
    (hv : v = .none ∨ v = .null) (hp : f.params[i]? = some p) (hg : Given f args kws i v)
    (hr : evalType e.cfg e.tm p.2.1 = .ok r) (hs : r.mods = []) :
    (callFunc e n f found st args kws).1 = .raised .typeError := by
  obtain ⟨l, h1, h2, h3, h4⟩ := filled hf hc
  unfold callFunc prepare
  rw [h1]
  simp only
  cases hcm : complete e n f st 0 l with
  | mk r1 st1 =>
    cases r1 with
    | error x =>
      have := complete_err ht l (st := st) (i := 0) (x := x) (by omega) (by rw [hcm])
      subst this
      rfl
    | ok ag =>
      obtain ⟨as1, g1⟩ := ag
      obtain ⟨_, _, _, q4⟩ := complete_ok l hcm
      obtain ⟨st2, a, r1, r2, r3⟩ := q4 i _ (h3 i _ hg (List.getElem?_eq_some_iff.1 hp).1)
      rw [Nat.zero_add] at r2
      have hsl : v.slot = .null := by rcases hv with rfl | rfl <;> rfl
      rw [hsl] at r2
      cases r2 with
      | null p' r' c hp' hr' hm hgc =>
        rw [hp] at hp'; cases hp'
        rw [hr] at hr'; cases hr'
        exact (hm hs).elim

/-- ctypes classes whose instance made without arguments is a NULL pointer. -/
def PtrCls : Cls → Prop
  | .ptr _ => True
  | .fn _ _ _ => True
  | .prim p => p = c%"c_void_p" ∨ p = c%"c_char_p" ∨ p = c%"c_wchar_p"
  | _ => False

theorem ptrCls_mkPtr (c : Cls) : PtrCls (mkPtr c) := by cases c <;> simp [mkPtr, PtrCls]

theorem findPtr_suffix (n : Nat) : ∀ (p s : Bool) (ms : List CMod), ∃ pre, ms = pre ++ (findPtr n p s ms).2.2 := by
  induction n with
  | zero => intro p s ms; exact ⟨[], by simp [findPtr]⟩
  | succ n ih =>
    intro p s ms
    cases ms with
    | nil => exact ⟨[], by simp [findPtr]⟩
    | cons m ms =>
      cases m with
      | sym x =>
        unfold findPtr
        by_cases h1 : x = c%"*"
        · rw [if_pos h1]
          obtain ⟨pre, h⟩ := ih true s ms
          exact ⟨.sym x :: pre, by rw [List.cons_append, ← h]⟩
        · rw [if_neg h1]
          by_cases h2 : isConv x = true
          · rw [if_pos h2]
            obtain ⟨pre, h⟩ := ih p (x == c%"__stdcall") ms
            exact ⟨.sym x :: pre, by rw [List.cons_append, ← h]⟩
          · rw [if_neg h2]; exact ⟨[], rfl⟩
      | arr ids => exact ⟨[], by simp [findPtr]⟩
      | fn ps => exact ⟨[], by simp [findPtr]⟩

theorem applyMods_ptrCls (w : Bool) (rec : CtState → CType → Except PyErr Cls × CtState) (n : Nat) :
    ∀ (st : CtState) (c c' : Cls) (ms : List CMod), (ms = [] → PtrCls c) → (ms ≠ [] → ms.getLast? = some (.sym c%"*")) →
      (applyMods w rec n st c ms).1 = .ok c' → PtrCls c' := by
  induction n with
  | zero =>
    intro st c c' ms h1 h2 h
    cases ms with
    | nil => simp [applyMods] at h; subst h; exact h1 rfl
    | cons m ms => simp [applyMods] at h
  | succ n ih =>
    intro st c c' ms h1 h2 h
    cases ms with
    | nil => simp [applyMods] at h; subst h; exact h1 rfl
    | cons m ms =>
      have hl := h2 (by simp)
      have hl' : ms ≠ [] → ms.getLast? = some (.sym c%"*") := by
        intro hne
        cases ms with
        | nil => exact (hne rfl).elim
        | cons a b => rw [List.getLast?_cons_cons] at hl; exact hl
      cases m with
      | sym s =>
        cases s with
        | nil => simp [applyMods] at h
        | cons x xs =>
          simp only [applyMods] at h
          refine ih _ _ _ ms ?_ hl' h
          intro hm; subst hm
          simp at hl
          obtain ⟨rfl, rfl⟩ := hl
          rw [if_pos (.inl rfl)]
          exact ptrCls_mkPtr c
      | arr ids =>
        simp only [applyMods] at h
        split at h
        · split at h
          · simp at h
          · refine ih _ _ _ ms ?_ hl' h
            intro hm; subst hm; simp at hl
        · simp at h
      | fn ps =>
        cases ms with
        | nil => simp at hl
        | cons m0 ms0 =>
          simp only [applyMods] at h
          obtain ⟨pre, hpre⟩ := findPtr_suffix 2 false false (m0 :: ms0)
          generalize hf : findPtr 2 false false (m0 :: ms0) = fp at h hpre
          obtain ⟨isP, std, rest⟩ := fp
          simp only at h hpre
          split at h
          · simp at h
          · split at h
            · simp at h
            · cases ha : argClasses rec st ps with
              | mk r3 st3 =>
                rw [ha] at h
                cases r3 with
                | error x => simp at h
                | ok args =>
                  simp only at h
                  cases hk : mkFn std c args with
                  | error x => rw [hk] at h; simp at h
                  | ok c1 =>
                    rw [hk] at h
                    simp only at h
                    refine ih _ _ _ rest ?_ ?_ h
                    · intro _
                      unfold mkFn at hk
                      split at hk
                      · cases hk
                      · cases hk; trivial
                    · intro hne
                      have := hl' (by simp)
                      rw [hpre, List.getLast?_append_of_ne_nil _ hne] at this
                      exact this

theorem mergeLoop_last (s : Str) (ms : List CMod) : ∀ (h : Int → List (Option Int)) (seen : CMod),
    (seen :: ms).getLast? = some (.sym s) → (mergeLoop h seen ms).1.getLast? = some (.sym s) ∧ (mergeLoop h seen ms).1 ≠ [] := by
  induction ms with
  | nil => intro h seen hs; simpa [mergeLoop] using hs
  | cons m ms ih =>
    intro h seen hs
    rw [List.getLast?_cons_cons] at hs
    unfold mergeLoop
    split
    · refine ih _ _ ?_
      cases ms with
      | nil => simp at hs
      | cons a b => simpa using hs
    · obtain ⟨h1, h2⟩ := ih h m hs
      refine ⟨?_, by simp⟩
      show (seen :: (mergeLoop h m ms).1).getLast? = _
      cases hr : (mergeLoop h m ms).1 with
      | nil => exact (h2 hr).elim
      | cons a b => rw [hr] at h1; rw [List.getLast?_cons_cons]; exact h1

theorem baseCls_mods {e : CtEnv} {rec : CtState → CType → Except PyErr Cls × CtState} {pt : Bool} {st st' : CtState} {r : CType}
    {c : Cls} {ms : List CMod} (h : baseCls e rec pt st r = (.ok (c, ms), st')) :
    (∃ p, specialCls r = some (p, ms) ∧ c = .prim p) ∨ ms = r.mods := by
  unfold baseCls at h
  split at h
  · rename_i p ms' hsp
    split at hsp
    · simp at h
      obtain ⟨⟨rfl, rfl⟩, _⟩ := h
      exact .inl ⟨p, hsp, rfl⟩
    · cases hsp
  · right
    cases hd : dget e.types r.spec with
    | some p => simp [hd] at h; exact h.1.2.symm
    | none =>
      simp only [hd] at h
      split at h
      · cases htag : resolveAlias.tagOf e r.spec with
        | error x => simp [htag] at h
        | ok tag =>
          simp only [htag] at h
          cases hg : getStruct e rec st (!startsWith r.spec c%"struct ") tag with
          | mk r2 st2 =>
            rw [hg] at h
            cases r2 with
            | error x => simp at h
            | ok c2 => simp at h; exact h.1.2.symm
      · split at h
        · simp at h; exact h.1.2.symm
        · split at h
          · simp at h; exact h.1.2.symm
          · simp at h

/-- C43 (partial: not arrays): if the declared type is a pointer (its last modifier is `*`, so also for
function pointers), the object passed for `None` is a NULL pointer. -/
theorem C43_pointer_partial (e : CtEnv) (n : Nat) (st : CtState) (t r : CType) (c : Cls) (hev : evalType e.cfg e.tm t = .ok r)
    (hl : r.mods.getLast? = some (.sym c%"*")) (hc : (getType e n st t).1 = .ok c) : PtrCls c := by
  cases n with
  | zero => simp [getType] at hc
  | succ n =>
    simp only [getType, hev] at hc
    cases hb : baseCls e (getType e n) true st r with
    | mk res st1 =>
      rw [hb] at hc
      cases res with
      | error x => simp at hc
      | ok cm =>
        obtain ⟨c0, ms⟩ := cm
        simp only at hc
        have key : (ms = [] → PtrCls c0) ∧ (ms ≠ [] → ms.getLast? = some (.sym c%"*")) := by
          rcases baseCls_mods hb with ⟨p, hsp, rfl⟩ | rfl
          · have hp : ∃ m, r.mods = m :: ms ∧ specialPtr r.spec = some p := by
              unfold specialCls at hsp
              split at hsp
              · rename_i s ms' hm
                split at hsp
                · rw [ptrTypes_special] at hsp
                  cases hq : specialPtr r.spec with
                  | none => rw [hq] at hsp; cases hsp
                  | some p' => rw [hq] at hsp; cases hsp; exact ⟨_, hm, rfl⟩
                · cases hsp
              · cases hsp
            obtain ⟨m, hm, hsp'⟩ := hp
            constructor
            · intro _
              unfold specialPtr at hsp'
              simp only [PtrCls]
              dsimp only at hsp'
              split at hsp'
              · cases hsp'; exact .inr (.inl rfl)
              · split at hsp'
                · cases hsp'; exact .inr (.inr rfl)
                · split at hsp'
                  · cases hsp'; exact .inl rfl
                  · cases hsp'
            · intro hne
              rw [hm] at hl
              cases ms with
              | nil => exact (hne rfl).elim
              | cons a b => rw [List.getLast?_cons_cons] at hl; exact hl
          · exact ⟨fun h => by rw [h] at hl; simp at hl, fun _ => hl⟩
        refine applyMods_ptrCls _ _ _ _ _ _ _ ?_ ?_ hc
        · intro h
          cases ms with
          | nil => exact key.1 rfl
          | cons m ms =>
            have := mergeLoop_last _ ms st1.heap m (key.2 (by simp))
            exact (this.2 h).elim
        · intro h
          cases ms with
          | nil => simp [mergeMods] at h
          | cons m ms => exact (mergeLoop_last _ ms st1.heap m (key.2 (by simp))).1

end

/-! ### C44 -/

/-- `int f(struct node *p, int k, char **s)` -/
def exFn : CFunc := ⟨ctTy c%"int" [], [(some c%"p", ctTy c%"struct node" [ctPtr], none), (some c%"k", ctTy c%"int" [], none),
  (some c%"s", ctTy c%"char" [ctPtr, ctPtr], none)], false, .prim c%"c_int",
  [.ptr (.comp 0), .prim c%"c_int", .ptr (.prim c%"c_char_p")]⟩

theorem exFn_plain : PlainC exFn := by
  refine ⟨?_, by simp [exFn]⟩
  rintro i j k ⟨p, hp, hk⟩ ⟨q, hq, hk'⟩
  have hi := (List.getElem?_eq_some_iff.1 hp).1
  have hj := (List.getElem?_eq_some_iff.1 hq).1
  simp [exFn] at hi hj
  match i, j, hi, hj with
  | 0, 0, _, _ | 1, 1, _, _ | 2, 2, _, _ => rfl
  | 0, 1, _, _ | 0, 2, _, _ | 1, 0, _, _ | 1, 2, _, _ | 2, 0, _, _ | 2, 1, _, _ =>
    exfalso
    simp [exFn] at hp hq
    subst hp; subst hq
    simp at hk hk'
    rw [← hk] at hk'
    simp at hk'

section
variable {V : Type}

/-- C44: access by name is access by position. -/
theorem C44_same (o : ValOps V) (r : CRes V) (hd : DistinctNames r.params) (i : Nat) (k : Str) (h : NameAt r.params i k) :
    r.get o (.str k) = r.get o (.int i) ∧ ∀ v, r.set (.str k) v = r.set (.int i) v := by
  have hf : findArg r.params k = .ok i := by
    unfold findArg
    cases hx : r.params.findIdx? (fun p => p.1 = some k) with
    | none =>
      obtain ⟨p, hp, hk⟩ := h
      have := List.findIdx?_eq_none_iff.1 hx p (List.mem_of_getElem? hp)
      simp [hk] at this
    | some j =>
      obtain ⟨hj, hjk, _⟩ := List.findIdx?_eq_some_iff_getElem.1 hx
      have : j = i := hd j i k ⟨_, List.getElem?_eq_getElem hj, by simpa using hjk⟩ h
      subst this; rfl
  constructor
  · simp only [CRes.get, hf]
  · intro v
    simp only [CRes.set, hf]

/-- C44: a name that is not a parameter raises `KeyError`, for reading and writing. -/
theorem C44_unknown (o : ValOps V) (r : CRes V) (k : Str) (h : ∀ p ∈ r.params, p.1 ≠ some k) :
    r.get o (.str k) = .error .keyError ∧ ∀ v, r.set (.str k) v = .error .keyError := by
  have hf : findArg r.params k = .error .keyError := by
    unfold findArg
    rw [List.findIdx?_eq_none_iff.2 (fun p hp => by simpa using h p hp)]
  constructor
  · simp only [CRes.get, hf]
  · intro v
    simp only [CRes.set, hf]

/-- C44: positions outside the arguments and keys that are neither an int nor a str raise, for reading and writing
alike. -/
theorem C44_bad_key (o : ValOps V) (r : CRes V) :
    (r.get o .other = .error .valueError ∧ ∀ v, r.set .other v = .error .valueError) ∧
      ∀ i : Int, (i ≥ r.args.length ∨ i < -(r.args.length : Int)) →
        r.get o (.int i) = .error .indexError ∧ ∀ v, r.set (.int i) v = .error .indexError := by
  refine ⟨⟨rfl, fun _ => rfl⟩, fun i hi => ?_⟩
  have hp : pyIndex r.args.length i = none := by
    unfold pyIndex
    split
    · rw [if_neg (by omega)]
    · rw [if_neg (by omega)]
  exact ⟨by simp only [CRes.get, CRes.at, hp], fun v => by simp only [CRes.set, CRes.set.put, hp]⟩

/-- What reading argument number `i` means: the argument itself, or what it points to if it was
auto-generated. -/
theorem C44_get (o : ValOps V) (r : CRes V) (i : Nat) (a : V) (h : r.args[i]? = some a) :
    r.get o (.int i) = if i ∈ r.guessed then (o.deref a).map o.extract else .ok (o.extract a) := by
  have hi := (List.getElem?_eq_some_iff.1 h).1
  have hp : pyIndex r.args.length i = some i := by
    unfold pyIndex
    rw [if_pos (by omega), if_pos (by omega)]; rfl
  simp only [CRes.get, CRes.at, hp, h]
  have hm : ((i : Int) ∈ r.guessed.map (fun (g : Nat) => (g : Int))) ↔ i ∈ r.guessed := by
    constructor
    · intro hx
      obtain ⟨g, hg, he⟩ := List.mem_map.1 hx
      have : g = i := by omega
      subst this; exact hg
    · intro hx; exact List.mem_map.2 ⟨i, hx, rfl⟩
  by_cases hg : i ∈ r.guessed
  · rw [if_pos (hm.2 hg), if_pos hg]
    cases o.deref a <;> rfl
  · rw [if_neg (fun hx => hg (hm.1 hx)), if_neg hg]

/-- C44: iterating yields the return value, then every argument in order. -/
theorem C44_iter (o : ValOps V) (r : CRes V) : (r.iter o).1 = r.value o ∧ (r.iter o).2.length = r.args.length ∧
    ∀ i < r.args.length, (r.iter o).2[i]? = some (r.get o (.int i)) := by
  refine ⟨rfl, by simp [CRes.iter], fun i hi => ?_⟩
  unfold CRes.iter
  rw [List.getElem?_map, List.getElem?_range hi]; rfl

/-- C44 (partial: not for auto-generated arguments): after an assignment, reading gives the value assigned;
the other arguments are unaffected. -/
theorem C44_assign_partial (o : ValOps V) (r r' : CRes V) (i : Nat) (v : V) (h : r.set (.int i) v = .ok r') (hg : i ∉ r.guessed) :
    r'.get o (.int i) = .ok (o.extract v) ∧ ∀ j, j ≠ i → r'.get o (.int (j : Nat)) = r.get o (.int j) := by
  simp only [CRes.set, CRes.set.put] at h
  unfold pyIndex at h
  rw [if_pos (by omega)] at h
  by_cases hi : (i : Int) < r.args.length
  · rw [if_pos hi] at h
    simp at h
    subst h
    have hi' : i < r.args.length := by omega
    constructor
    · rw [C44_get o _ i v (by simp only; rw [listSet_get, if_pos ⟨rfl, hi'⟩]), if_neg hg]
    · intro j hj
      by_cases hjl : j < r.args.length
      · have hget : (listSet r.args i v)[j]? = some r.args[j] := by
          rw [listSet_get, if_neg (by simp; omega), List.getElem?_eq_getElem hjl]
        rw [C44_get o r j _ (List.getElem?_eq_getElem hjl), C44_get o _ j r.args[j] hget]
      · have : pyIndex r.args.length (j : Int) = none := by
          unfold pyIndex; rw [if_pos (by omega), if_neg (by omega)]
        simp only [CRes.get, CRes.at, listSet_length, this]
  · rw [if_neg hi] at h; simp at h

/-- C44 (partial: not for auto-generated arguments): an assignment by name or by position is visible by name
and by position. -/
theorem C44_visible_partial (o : ValOps V) (r r' : CRes V) (hd : DistinctNames r.params) (i : Nat) (k : Str) (v : V)
    (h : NameAt r.params i k) (hg : i ∉ r.guessed) (hs : r.set (.str k) v = .ok r' ∨ r.set (.int i) v = .ok r') :
    r'.get o (.str k) = .ok (o.extract v) ∧ r'.get o (.int i) = .ok (o.extract v) := by
  have hs' : r.set (.int i) v = .ok r' := by
    rcases hs with hs | hs
    · rw [← (C44_same o r hd i k h).2 v]; exact hs
    · exact hs
  have hget := (C44_assign_partial o r r' i v hs' hg).1
  have hpar : r'.params = r.params := by
    simp only [CRes.set, CRes.set.put] at hs'
    cases hx : pyIndex r.args.length (i : Int) with
    | none => rw [hx] at hs'; simp at hs'
    | some j => rw [hx] at hs'; simp at hs'; rw [← hs']
  exact ⟨by rw [(C44_same o r' (by rw [hpar]; exact hd) i k (by rw [hpar]; exact h)).1]; exact hget, hget⟩

/-- C42: `auto()` is the list of the dereferenced auto-generated arguments, in the order of the parameters. -/
theorem C42_auto (o : ValOps V) (r : CRes V) (hg : ∀ i ∈ r.guessed, i < r.args.length) :
    r.auto o = r.guessed.mapM (fun i => match r.args[i]? with
      | some a => (o.deref a).map o.extract
      | none => .error .indexError) := by
  have key : ∀ (l : List Nat), (∀ i ∈ l, i ∈ r.guessed) → l.mapM (fun (i : Nat) => r.get o (.int i)) =
      l.mapM (fun i => match r.args[i]? with
        | some a => (o.deref a).map o.extract
        | none => .error .indexError) := by
    intro l
    induction l with
    | nil => intro _; rfl
    | cons i l ih =>
      intro h
      have hi := h i (by simp)
      have ha := List.getElem?_eq_getElem (hg i hi)
      rw [List.mapM_cons, List.mapM_cons, ih (fun j hj => h j (by simp [hj])), C44_get o r i _ ha, if_pos hi, ha]
  exact key _ (fun _ h => h)

/-- A result for `int f(struct node *p, int k, char **s)` in which `s` was auto-generated. -/
def exRes : CRes Nat := ⟨0, [7, 8, 9], exFn.params, [2]⟩

example : exRes.get ⟨fun a => .ok (a + 100), id⟩ (.str c%"s") = .ok 109 ∧ exRes.get ⟨fun a => .ok (a + 100), id⟩ (.int 2) = .ok 109 ∧
    exRes.auto ⟨fun a => .ok (a + 100), id⟩ = .ok [109] ∧ exRes.get ⟨fun a => .ok (a + 100), id⟩ (.str c%"k") = .ok 8 := by
  refine ⟨rfl, rfl, rfl, rfl⟩

example : DistinctNames exRes.params ∧ NameAt exRes.params 1 c%"k" ∧ 1 ∉ exRes.guessed ∧
    (∀ i ∈ exRes.guessed, i < exRes.args.length) :=
  ⟨exFn_plain.names, ⟨_, rfl, rfl⟩, by decide, by decide⟩

/-- C44 fails: after assigning to an auto-generated argument, reading dereferences the value assigned. -/
theorem C44_counterexample_assign : ∃ (o : ValOps Nat) (r r' : CRes Nat), r.set (.int 0) 5 = .ok r' ∧
    r'.get o (.int 0) = .error .typeError :=
  ⟨⟨fun _ => .error .typeError, id⟩, ⟨0, [7], [(some c%"x", ctTy c%"int" [ctPtr], none)], [0]⟩, _, rfl, rfl⟩

/-- C44 fails for negative positions: `result[-1]` does not dereference an auto-generated argument. -/
theorem C44_counterexample_negative : ∃ (o : ValOps Nat) (r : CRes Nat), r.get o (.int (-1)) ≠ r.get o (.int (r.args.length - 1)) :=
  ⟨⟨fun a => .ok (a + 1), id⟩, ⟨0, [7], [(some c%"x", ctTy c%"int" [ctPtr], none)], [0]⟩, by
    intro h
    have h1 : CRes.get (V := Nat) ⟨fun a => .ok (a + 1), id⟩ ⟨0, [7], [(some c%"x", ctTy c%"int" [ctPtr], none)], [0]⟩ (.int (-1)) = .ok 7 := rfl
    have h2 : CRes.get (V := Nat) ⟨fun a => .ok (a + 1), id⟩ ⟨0, [7], [(some c%"x", ctTy c%"int" [ctPtr], none)], [0]⟩ (.int (([7] : List Nat).length - 1)) = .ok 8 := rfl
    rw [h1] at h
    have := h.trans h2
    simp at this⟩

end

/-! ### C45 -/

/-- C45: whatever `with self.lib.lock` does, with `lock_calls=True` no two threads are in C functions of the
library at the same time, and a thread that is holds the lock; in every interleaving of any number of
threads. -/
theorem C45_exclusive (lk : LockExpr) (s : Threads) (h : ThreadRun true lk s) :
    (∀ i, s.phase i = .inside ↔ s.owner = some i) ∧ ∀ i j, s.phase i = .inside → s.phase j = .inside → i = j := by
  have key : ∀ i, s.phase i = .inside ↔ s.owner = some i := by
    induction h with
    | start => intro i; simp
    | step s s' hr hs ih =>
      cases hs with
      | enterFree i hl _ => cases hl
      | leaveFree i hl _ => cases hl
      | raise i e _ _ _ => exact ih
      | enter i _ _ hi ho =>
        intro j
        simp only
        by_cases hj : j = i
        · subst hj; simp
        · rw [if_neg hj, ih j, ho]
          simp [Ne.symm hj]
      | leave i _ _ hi ho =>
        intro j
        simp only
        by_cases hj : j = i
        · subst hj; simp
        · rw [if_neg hj, ih j, ho]
          simp [Ne.symm hj]
  refine ⟨key, fun i j hi hj => ?_⟩
  have h1 := (key i).1 hi
  have h2 := (key j).1 hj
  rw [h1] at h2; cases h2; rfl

/-- C45: with `lock_calls=False` a call can enter the C function at any time. -/
theorem C45_unlocked (lk : LockExpr) (s : Threads) (i : Nat) (h : s.phase i = .idle) :
    ∃ s', ThreadStep false lk s s' ∧ s'.phase i = .inside ∧ ∀ j, j ≠ i → s'.phase j = s.phase j :=
  ⟨_, .enterFree s i rfl h, by simp, fun j hj => by simp [hj]⟩

/-- C45, one call: without `lock_calls` the C function is called with the arguments prepared. -/
theorem C45_call_unlocked {A : Type} (e : CtEnv) (n : Nat) (f : CFunc) (hl : f.lockCall = false) (found : Except PyErr Unit)
    (st st' : CtState) (args : List (PyArg A)) (kws : List (Str × PyArg A)) (as : List (Passed A)) (g : List Nat)
    (h : prepare e n f st args kws = (.ok (as, g), st')) : callFunc e n f found st args kws = (.called as g, st') := by
  unfold callFunc
  rw [h]
  simp [hl]

/-- C45 fails: with `lock_calls=True` no call ever reaches the C function, because `self.lib.lock` is not the
lock (it is stored as `_lock_`); every call raises. -/
theorem C45_counterexample {A : Type} (e : CtEnv) (n : Nat) (f : CFunc) (hl : f.lockCall = true) (found : Except PyErr Unit)
    (st : CtState) (args : List (PyArg A)) (kws : List (Str × PyArg A)) :
    ∃ x, (callFunc e n f found st args kws).1 = .raised x := by
  unfold callFunc
  split
  · exact ⟨_, rfl⟩
  · simp [hl]

theorem C45_counterexample_threads (x : PyErr) (s : Threads) (h : ThreadRun true (.raises x) s) (i : Nat) : s.phase i = .idle := by
  induction h with
  | start => rfl
  | step s s' hr hs ih =>
    cases hs with
    | enterFree i hl _ => cases hl
    | leaveFree i hl _ => cases hl
    | raise i e _ _ _ => exact ih
    | enter i _ hk _ _ => cases hk
    | leave i _ hk _ _ => cases hk

/-! ### C46 -/

/-- C46: the parameters of a wrapped function are the declared ones without those of type `void`, in order
and with their names. -/
theorem C46_params (e : CtEnv) (n : Nat) (st st' : CtState) (ret : CType) (params : List Param) (lock : Bool) (f : CFunc)
    (h : initFunc e n st ret params lock = (.ok f, st')) :
    f.params.Sublist params ∧ f.ret = ret ∧ f.lockCall = lock ∧
    ∀ p ∈ params, (p ∈ f.params ↔ ¬ (p.2.1.spec = c%"void" ∧ p.2.1.mods = [])) := by
  have hf : ∃ c cs, f = ⟨ret, params.filter (fun p => !isVoidParam p), lock, c, cs⟩ := by
    unfold initFunc at h
    simp only at h
    split at h
    · simp at h
    · split at h
      · simp at h
      · split at h
        · simp at h
        · split at h
          · simp at h
          · simp at h; exact ⟨_, _, h.1.symm⟩
  obtain ⟨c, cs, rfl⟩ := hf
  refine ⟨List.filter_sublist, rfl, rfl, fun p hp => ?_⟩
  simp only [List.mem_filter, hp, true_and, isVoidParam]
  cases hm : p.2.1.mods with
  | nil => simp
  | cons m ms => simp

/-- C46: a function declared with `()` or `(void)`, for a return type that can be built and without calling
convention, is wrapped and called without arguments; any keyword raises `TypeError`. -/
theorem C46_no_parameters {A : Type} (e : CtEnv) (n : Nat) (st st' : CtState) (ret : CType) (c : Cls) (params : List Param)
    (hp : ∀ p ∈ params, p.2.1.spec = c%"void" ∧ p.2.1.mods = []) (hcv : hasConv ret = false)
    (hr : getType e n st ret = (.ok c, st')) (found : Except PyErr Unit) :
    initFunc e n st ret params false = (.ok ⟨ret, [], false, c, []⟩, st') ∧
    callFunc (A := A) e n ⟨ret, [], false, c, []⟩ found st' [] [] = (.called [] [], st') ∧
    ∀ k v args, (callFunc (A := A) e n ⟨ret, [], false, c, []⟩ found st' args [(k, v)]) = (.raised .typeError, st') := by
  have hfil : params.filter (fun p => !isVoidParam p) = [] := by
    rw [List.filter_eq_nil_iff]
    intro p hpm
    obtain ⟨h1, h2⟩ := hp p hpm
    simp [isVoidParam, h1, h2]
  refine ⟨?_, rfl, fun k v args => C41_unknown _ _ _ _ _ _ _ k v (by simp) (by simp)⟩
  unfold initFunc
  simp only [hfil, hcv, hr]
  rfl

/-! ### Examples and counterexamples -/

/-- `f(None, k=3)`: NULL for `p`, a new `char *` for `s`. -/
example : (callFunc exEnv 5 exFn (.error .nameError) exStart [.none] [(c%"k", .obj 3)]).1 =
    .called [.nul (.ptr (.comp 0)), .obj 3, .auto (.ptr (.prim c%"c_char_p"))] [2] := by rfl

example : FairCall exFn [.none] [(c%"k", .obj 3)] := by
  refine ⟨by simp [exFn], by simp, ?_⟩
  intro k v h
  simp at h
  exact ⟨1, _, rfl, by rw [h.1]⟩

example : Omitted exFn [.none] [(c%"k", PyArg.obj 3)] 2 := by
  refine ⟨?_, by simp⟩
  rintro k w h ⟨p, hp, hk⟩
  simp at h
  cases hp
  rw [h.1] at hk
  simp at hk

/-- `f(p, k)` and `f(p, k=k)`: instance of C41. -/
example : callFunc exEnv 5 exFn (.error .nameError) exStart [.obj 1] [(c%"s", .obj 3), (c%"k", .obj 2)] =
    callFunc exEnv 5 exFn (.error .nameError) exStart [.obj 1, .obj 2, .obj 3] [] :=
  C41_split _ _ _ _ _ exFn_plain.names [.obj 1] [.obj 2, .obj 3] [c%"k", c%"s"] rfl (by
    intro j k h
    match j, h with
    | 0, h => cases h; exact ⟨_, rfl, rfl⟩
    | 1, h => cases h; exact ⟨_, rfl, rfl⟩) _ (List.Perm.swap _ _ _)

/-- C42 fails for default values: an omitted optional pointer in front of a keyword argument is
auto-generated. -/
theorem C42_counterexample_default : ∃ f : CFunc, f.req = 0 ∧
    (callFunc (cxEnv [] []) 5 f (.error .nameError) exStart [] [(c%"b", .obj 1)]).1 =
      .called [.auto (.ptr (.prim c%"c_int")), .obj 1] [0] :=
  ⟨⟨ctTy c%"int" [], [(some c%"a", ctTy c%"int" [ctPtr], some c%"0"), (some c%"b", ctTy c%"int" [], some c%"1")], false,
    .prim c%"c_int", [.ptr (.prim c%"c_int"), .prim c%"c_int"]⟩, rfl, rfl⟩

/-- C43 fails: `None` for a parameter `int a[3]` passes an array of three zeros, not NULL. -/
theorem C43_counterexample_array : ∃ (f : CFunc) (e : CtEnv) (st : CtState),
    f.params = [(some c%"a", ctTy c%"int" [ctArr 2], none)] ∧
    (callFunc (A := Nat) e 5 f (.error .nameError) st [.none] []).1 = .called [.nul (.arr 3 (.prim c%"c_int"))] [] ∧
    ¬ PtrCls (.arr 3 (.prim c%"c_int")) :=
  ⟨⟨ctTy c%"int" [], [(some c%"a", ctTy c%"int" [ctArr 2], none)], false, .prim c%"c_int", [.arr 3 (.prim c%"c_int")]⟩, cxEnv [] [], exStart, rfl, rfl, id⟩

/-- C46 fails for a typedef of `void`: the function cannot be wrapped. -/
theorem C46_counterexample_typedef :
    (initFunc (cxEnv [(c%"V", .type (ctTy c%"void" []))] []) 5 exStart (ctTy c%"int" []) [(none, ctTy c%"V" [], none)] false).1 =
      .error .typeError := by rfl

/-- C46 fails: a function declared with a calling convention cannot be wrapped. -/
theorem C46_counterexample_convention :
    (initFunc (cxEnv [] []) 5 exStart (ctTy c%"int" [.sym c%"__cdecl"]) [(none, ctTy c%"void" [], none)] false).1 =
      .error .attributeError := by rfl

/-- C46 fails: extra positional arguments for a function without parameters reach the C function. -/
theorem C46_counterexample_extra :
    (callFunc (cxEnv [] []) 5 ⟨ctTy c%"int" [], [], false, .prim c%"c_int", []⟩ (.error .nameError) exStart [.obj 1] []).1 = .called [.obj 1] [] := by rfl

end Pyclib
