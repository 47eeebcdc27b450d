import Verif.Props.Call
/-!
C84: which arguments reach the C function, for every signature (default values, repeated parameter names) and
every call (too few and too many arguments, a parameter given twice).  What the caller means is stated by
`Names`, `Gives` and `Reaches`, without the functions of the model.
-/
namespace Pyclib

variable {A : Type}

/-- The keyword `k` refers to parameter number `i`: the last one of that name. -/
def Names (ps : List Param) (k : Str) (i : Nat) : Prop := NameAt ps i k ∧ ∀ j, i < j → ¬ NameAt ps j k

/-- What the caller gives for position `i`: the value of a keyword that refers to it, otherwise the positional
argument, otherwise nothing. -/
inductive Gives (ps : List Param) (args : List (PyArg A)) (kws : List (Str × PyArg A)) (i : Nat) : Option (PyArg A) → Prop
  | keyword (k : Str) (v : PyArg A) (hm : (k, v) ∈ kws) (hn : Names ps k i) : Gives ps args kws i (some v)
  | position (v : PyArg A) (hno : ∀ k v, (k, v) ∈ kws → ¬ Names ps k i) (ha : args[i]? = some v) :
      Gives ps args kws i (some v)
  | nothing (hno : ∀ k v, (k, v) ∈ kws → ¬ Names ps k i) (ha : args.length ≤ i) : Gives ps args kws i none

/-- Position `m` is passed to the C function: it is not behind the last positional argument, or behind the
number of parameters without default value, or behind the last parameter given by keyword. -/
def Reaches (ps : List Param) (args : List (PyArg A)) (kws : List (Str × PyArg A)) (m : Nat) : Prop :=
  m < args.length ∨ m < (ps.filter (fun p => p.2.2.isNone)).length ∨ ∃ k v i, (k, v) ∈ kws ∧ Names ps k i ∧ m ≤ i

/-- `None` or `lib.Null`. -/
def PyArg.IsNull (v : PyArg A) : Prop := v = .none ∨ v = .null

/-- What is passed for what the caller gave: the object itself; `cls()` for `None`, with the class of the
declared type, which must have a modifier; for nothing the object `_get_pointer` makes, the declared type
being a one- or two-level pointer. -/
def PassedFor (e : CtEnv) (n : Nat) (ps : List Param) (i : Nat) (w : Option (PyArg A)) (a : Passed A) : Prop :=
  (∃ x, w = some (.obj x) ∧ a = .obj x) ∨
  (∃ v p r c st, w = some v ∧ v.IsNull ∧ ps[i]? = some p ∧ evalType e.cfg e.tm p.2.1 = .ok r ∧ r.mods ≠ [] ∧
    (getType e n st p.2.1).1 = .ok c ∧ a = .nul c) ∨
  (∃ p r c st, w = none ∧ ps[i]? = some p ∧ evalType e.cfg e.tm p.2.1 = .ok r ∧ ShortPtr r ∧
    (getPointer e n st r p.2.1).1 = .ok c ∧ a = .auto c)

/-- What the caller gave can be passed: objects always, `None` for a parameter whose type has a modifier,
nothing for a one- or two-level pointer. -/
def Passable (e : CtEnv) (ps : List Param) (i : Nat) (w : Option (PyArg A)) : Prop :=
  (∃ x, w = some (.obj x)) ∨
  (∃ v p r, w = some v ∧ v.IsNull ∧ ps[i]? = some p ∧ evalType e.cfg e.tm p.2.1 = .ok r ∧ r.mods ≠ []) ∨
  (∃ p r, w = none ∧ ps[i]? = some p ∧ evalType e.cfg e.tm p.2.1 = .ok r ∧ ShortPtr r)

theorem argIndexFrom_last (k : Str) (ps : List Param) : ∀ (i d : Nat), argIndexFrom k i ps = some (i + d) → ∀ j, d < j → ¬ NameAt ps j k := by
  induction ps with
  | nil => rintro i d h j _ ⟨p, hp, _⟩; simp at hp
  | cons p ps ih =>
    intro i d h j hj
    simp only [argIndexFrom] at h
    cases hr : argIndexFrom k (i + 1) ps with
    | some j' =>
      rw [hr] at h; simp at h
      obtain ⟨d', hd', _⟩ := argIndexFrom_some k ps _ _ hr
      have hdd : d = d' + 1 := by omega
      have hr' : argIndexFrom k (i + 1) ps = some (i + 1 + d') := by rw [hr, hd']
      obtain ⟨j0, rfl⟩ : ∃ j0, j = j0 + 1 := ⟨j - 1, by omega⟩
      rintro ⟨q, hq, hk⟩
      exact ih _ _ hr' j0 (by omega) ⟨q, by simpa using hq, hk⟩
    | none =>
      obtain ⟨j0, rfl⟩ : ∃ j0, j = j0 + 1 := ⟨j - 1, by omega⟩
      rintro ⟨q, hq, hk⟩
      exact (argIndexFrom_none k ps _).1 hr q (List.mem_of_getElem? (by simpa using hq)) hk

theorem argIndex_iff {f : CFunc} {k : Str} {i : Nat} : f.argIndex k = some i ↔ Names f.params k i := by
  constructor
  · intro h
    exact ⟨argIndex_name h, argIndexFrom_last k f.params 0 i (by rw [Nat.zero_add]; exact h)⟩
  · rintro ⟨hn, hl⟩
    cases hx : f.argIndex k with
    | none => obtain ⟨p, hp, hk⟩ := hn; exact (argIndex_none.1 hx p (List.mem_of_getElem? hp) hk).elim
    | some j =>
      have h1 := argIndex_name hx
      have h2 := argIndexFrom_last k f.params 0 j (by rw [Nat.zero_add]; exact hx)
      rcases Nat.lt_trichotomy i j with h | h | h
      · exact (hl j h h1).elim
      · rw [h]
      · exact (h2 i h hn).elim

theorem Names.unique {ps : List Param} {k k' : Str} {i : Nat} (h : Names ps k i) (h' : Names ps k' i) : k = k' := by
  obtain ⟨⟨p, hp, hk⟩, _⟩ := h
  obtain ⟨⟨q, hq, hk'⟩, _⟩ := h'
  rw [hp] at hq; cases hq
  rw [hk] at hk'; cases hk'; rfl

theorem mem_unique {kws : List (Str × PyArg A)} (hn : (kws.map (·.1)).Nodup) {k : Str} {v v' : PyArg A} (h : (k, v) ∈ kws)
    (h' : (k, v') ∈ kws) : v = v' := by
  induction kws with
  | nil => simp at h
  | cons x kws ih =>
    rw [List.map_cons, List.nodup_cons] at hn
    rcases List.mem_cons.1 h with rfl | h1
    · rcases List.mem_cons.1 h' with h2 | h2
      · cases h2; rfl
      · exact (hn.1 (List.mem_map.2 ⟨_, h2, rfl⟩)).elim
    · rcases List.mem_cons.1 h' with rfl | h2
      · exact (hn.1 (List.mem_map.2 ⟨_, h1, rfl⟩)).elim
      · exact ih hn.2 h1 h2

/-- There is exactly one answer to what the caller gives. -/
theorem C84_given (ps : List Param) (args : List (PyArg A)) (kws : List (Str × PyArg A)) (hn : (kws.map (·.1)).Nodup) (i : Nat) :
    (∃ w, Gives ps args kws i w) ∧ ∀ w w', Gives ps args kws i w → Gives ps args kws i w' → w = w' := by
  constructor
  · by_cases hk : ∃ k v, (k, v) ∈ kws ∧ Names ps k i
    · obtain ⟨k, v, hm, hn⟩ := hk
      exact ⟨_, .keyword k v hm hn⟩
    · have hno : ∀ k v, (k, v) ∈ kws → ¬ Names ps k i := fun k v hm hn => hk ⟨k, v, hm, hn⟩
      by_cases ha : i < args.length
      · exact ⟨_, .position _ hno (List.getElem?_eq_getElem ha)⟩
      · exact ⟨_, .nothing hno (by omega)⟩
  · intro w w' h h'
    cases h with
    | keyword k v hm hk =>
      cases h' with
      | keyword k' v' hm' hk' =>
        have := hk.unique hk'
        subst this
        rw [mem_unique hn hm hm']
      | position v' hno _ => exact (hno _ _ hm hk).elim
      | nothing hno _ => exact (hno _ _ hm hk).elim
    | position v hno ha =>
      cases h' with
      | keyword k' v' hm' hk' => exact (hno _ _ hm' hk').elim
      | position v' _ ha' => rw [ha] at ha'; exact ha'
      | nothing _ ha' => rw [List.getElem?_eq_none ha'] at ha; cases ha
    | nothing hno ha =>
      cases h' with
      | keyword k' v' hm' hk' => exact (hno _ _ hm' hk').elim
      | position v' _ ha' => rw [List.getElem?_eq_none ha] at ha'; cases ha'
      | nothing _ _ => rfl

/-- The entry of `arg_list` for what the caller gave. -/
def slotFor : Option (PyArg A) → Slot A
  | some v => v.slot
  | none => .missing

theorem filled_all {f : CFunc} {args : List (PyArg A)} {kws : List (Str × PyArg A)} (hn : (kws.map (·.1)).Nodup)
    (hk : ∀ k v, (k, v) ∈ kws → ∃ i, Names f.params k i) :
    ∃ l, fillKw f (fillPos f args) kws = .ok l ∧ (∀ m, m < l.length ↔ Reaches f.params args kws m) ∧
      ∀ i w, i < l.length → Gives f.params args kws i w → l[i]? = some (slotFor w) := by
  obtain ⟨l, h1, h2, h3, h4⟩ := fillKw_spec f kws (fillPos f args) hn (by
    rintro ⟨k, v⟩ hm h
    obtain ⟨i, hi⟩ := hk k v hm
    rw [argIndex_iff.2 hi] at h; cases h)
  refine ⟨l, h1, fun m => ?_, fun i w hi hw => ?_⟩
  · rw [h4 m, fillPos_length]
    unfold Reaches
    have hr : f.req = (f.params.filter (fun p => p.2.2.isNone)).length := rfl
    rw [← hr]
    constructor
    · rintro (h | ⟨k, v, i, hm, hx, hle⟩)
      · by_cases ha : m < args.length
        · exact .inl ha
        · exact .inr (.inl (by omega))
      · exact .inr (.inr ⟨k, v, i, hm, argIndex_iff.1 hx, hle⟩)
    · rintro (h | h | ⟨k, v, i, hm, hx, hle⟩)
      · exact .inl (by omega)
      · exact .inl (by omega)
      · exact .inr ⟨k, v, i, hm, argIndex_iff.2 hx, hle⟩
  · cases hw with
    | keyword k v hm hx => exact h2 k v i hm (argIndex_iff.2 hx)
    | position v hno ha =>
      have hlt := (List.getElem?_eq_some_iff.1 ha).1
      rw [h3 i (fun k v hm hx => hno k v hm (argIndex_iff.1 hx)), if_pos (by rw [fillPos_length]; omega), fillPos_get,
        if_pos hlt, ha]
      rfl
    | nothing hno ha =>
      rw [h3 i (fun k v hm hx => hno k v hm (argIndex_iff.1 hx)), if_pos hi]
      split
      · rename_i h
        rw [fillPos_length] at h
        rw [fillPos_get, if_neg (by omega), if_pos (by omega)]
        rfl
      · rfl

theorem slot_null {v : PyArg A} (h : v.slot = .null) : v.IsNull := by
  cases v with
  | none => exact .inl rfl
  | null => exact .inr rfl
  | obj a => cases h

theorem slot_of_null {v : PyArg A} (h : v.IsNull) : v.slot = .null := by
  rcases h with rfl | rfl <;> rfl

theorem completes_passed {e : CtEnv} {n : Nat} {f : CFunc} {st : CtState} {i : Nat} {w : Option (PyArg A)} {a : Passed A}
    (h : Completes e n f st i (slotFor w) a) : PassedFor e n f.params i w a ∧ ((∃ c, a = .auto c) ↔ w = none) := by
  cases w with
  | none =>
    generalize hs : slotFor (none : Option (PyArg A)) = s at h
    cases h with
    | obj b => cases hs
    | null p r c => cases hs
    | auto p r c hp hr hm hc => exact ⟨.inr (.inr ⟨p, r, c, st, rfl, hp, hr, hm, hc, rfl⟩), by simp⟩
  | some v =>
    generalize hs : slotFor (some v) = s at h
    cases h with
    | obj b =>
      cases v with
      | obj x => cases hs; exact ⟨.inl ⟨_, rfl, rfl⟩, by simp⟩
      | none => cases hs
      | null => cases hs
    | null p r c hp hr hm hc =>
      exact ⟨.inr (.inl ⟨v, p, r, c, st, rfl, slot_null hs, hp, hr, hm, hc, rfl⟩), by simp⟩
    | auto p r c => cases v <;> cases hs

/-- C84: if the C function is reached, then all keywords are names of parameters, the number of arguments is
determined by `Reaches`, every argument is what the caller gave for that position (`PassedFor`), and the
auto-generated ones are exactly those for which nothing was given, in increasing order. -/
theorem C84_called (e : CtEnv) (n : Nat) (f : CFunc) (found : Except PyErr Unit) (st st' : CtState) (args : List (PyArg A))
    (kws : List (Str × PyArg A)) (hn : (kws.map (·.1)).Nodup) (as : List (Passed A)) (g : List Nat)
    (h : callFunc e n f found st args kws = (.called as g, st')) :
    (∀ k v, (k, v) ∈ kws → ∃ i, Names f.params k i) ∧ (∀ m, m < as.length ↔ Reaches f.params args kws m) ∧
    (∀ i w, i < as.length → Gives f.params args kws i w → ∃ a, as[i]? = some a ∧ PassedFor e n f.params i w a) ∧
    g.Pairwise (· < ·) ∧ ∀ i, i ∈ g ↔ i < as.length ∧ Gives f.params args kws i none := by
  have hk : ∀ k v, (k, v) ∈ kws → ∃ i, Names f.params k i := by
    intro k v hm
    cases hx : f.argIndex k with
    | some i => exact ⟨i, argIndex_iff.1 hx⟩
    | none =>
      rw [C41_unknown e n f found st args kws k v hm (argIndex_none.1 hx)] at h
      simp at h
  refine ⟨hk, ?_⟩
  obtain ⟨l, h1, h2, h3⟩ := filled_all (args := args) hn hk
  unfold callFunc prepare at h
  rw [h1] at h
  simp only at h
  cases hcm : complete e n f st 0 l with
  | mk r1 st1 =>
    rw [hcm] at h
    cases r1 with
    | error x => simp at h
    | ok ag =>
      obtain ⟨as1, g1⟩ := ag
      simp only at h
      split at h
      · simp at h
      · simp at h
        obtain ⟨⟨rfl, rfl⟩, _⟩ := h
        obtain ⟨q1, q2, q3, q4⟩ := complete_ok l hcm
        have key : ∀ i w, i < as1.length → Gives f.params args kws i w → ∃ a, as1[i]? = some a ∧ PassedFor e n f.params i w a ∧
            (i ∈ g1 ↔ w = none) := by
          intro i w hi hw
          obtain ⟨st2, a, r1, r2, r3⟩ := q4 i _ (h3 i w (by omega) hw)
          rw [Nat.zero_add] at r2 r3
          obtain ⟨u1, u2⟩ := completes_passed r2
          exact ⟨a, r1, u1, r3.trans u2⟩
        refine ⟨fun m => by rw [q1]; exact h2 m, fun i w hi hw => ?_, q2, fun i => ?_⟩
        · obtain ⟨a, u1, u2, _⟩ := key i w hi hw
          exact ⟨a, u1, u2⟩
        · constructor
          · intro hi
            have hlt : i < as1.length := by have := (q3 i hi).2; omega
            refine ⟨hlt, ?_⟩
            obtain ⟨w, hw⟩ := (C84_given f.params args kws hn i).1
            obtain ⟨a, _, _, u3⟩ := key i w hlt hw
            rw [u3.1 hi] at hw
            exact hw
          · rintro ⟨hlt, hw⟩
            obtain ⟨a, _, _, u3⟩ := key i none hlt hw
            exact u3.2 rfl

theorem completeArg_total {e : CtEnv} {n : Nat} {f : CFunc} (hf : TypesFine e n f) {st : CtState} {i : Nat} {w : Option (PyArg A)}
    (hw : Passable e f.params i w) : ∃ a, (completeArg e n f st i (slotFor w)).1 = .ok a := by
  rcases hw with ⟨x, rfl⟩ | ⟨v, p, r, rfl, hv, hp, hr, hm⟩ | ⟨p, r, rfl, hp, hr, hm⟩
  · exact ⟨_, rfl⟩
  · obtain ⟨c, hc⟩ := hf.type p (List.mem_of_getElem? hp) st
    refine ⟨.nul c, ?_⟩
    simp only [slotFor, slot_of_null hv, completeArg, hp, hr, if_neg hm]
    cases hg : getType e n st p.2.1 with
    | mk res st1 => rw [hg] at hc; simp only at hc; subst hc; rfl
  · obtain ⟨c, hc⟩ := hf.base p (List.mem_of_getElem? hp) st
    simp only [slotFor, completeArg, hp, hr]
    cases hg : getPointer e n st r p.2.1 with
    | mk res st1 =>
      cases res with
      | ok c => exact ⟨.auto c, rfl⟩
      | error y =>
        rcases getPointer_short hg with ⟨_, q⟩ | ⟨q, _⟩
        · rw [hc] at q; have := q y rfl; cases this
        · exact (q hm).elim

theorem complete_total {e : CtEnv} {n : Nat} {f : CFunc} (l : List (Slot A)) : ∀ {st : CtState} {i : Nat},
    (∀ j s st, l[j]? = some s → ∃ a, (completeArg e n f st (i + j) s).1 = .ok a) →
    ∃ x, (complete e n f st i l).1 = .ok x := by
  induction l with
  | nil => intro st i _; exact ⟨_, rfl⟩
  | cons s l ih =>
    intro st i h
    simp only [complete]
    obtain ⟨a, ha⟩ := h 0 s st rfl
    rw [Nat.add_zero] at ha
    cases hc : completeArg e n f st i s with
    | mk r1 st1 =>
      rw [hc] at ha
      simp only at ha
      subst ha
      simp only
      obtain ⟨x, hx⟩ := ih (st := st1) (i := i + 1) (fun j s st hj => by
        have := h (j + 1) s st (by simpa using hj)
        rwa [show i + (j + 1) = i + 1 + j by omega] at this)
      cases hr : complete e n f st1 (i + 1) l with
      | mk r2 st2 => rw [hr] at hx; simp only at hx; subst hx; exact ⟨_, rfl⟩

/-- C84: exactly when the C function is reached (without `lock_calls`, and if the types of the parameters can be
built). -/
theorem C84_reached (e : CtEnv) (n : Nat) (f : CFunc) (ht : TypesFine e n f) (hl : f.lockCall = false) (found : Except PyErr Unit)
    (st : CtState) (args : List (PyArg A)) (kws : List (Str × PyArg A)) (hn : (kws.map (·.1)).Nodup) :
    (∃ as g, (callFunc e n f found st args kws).1 = .called as g) ↔
      (∀ k v, (k, v) ∈ kws → ∃ i, Names f.params k i) ∧
      ∀ i w, Reaches f.params args kws i → Gives f.params args kws i w → Passable e f.params i w := by
  constructor
  · rintro ⟨as, g, h⟩
    cases hc : callFunc e n f found st args kws with
    | mk r st1 =>
      rw [hc] at h
      simp only at h
      subst h
      obtain ⟨h1, h2, h3, _⟩ := C84_called e n f found st st1 args kws hn as g hc
      refine ⟨h1, fun i w hr hw => ?_⟩
      obtain ⟨a, _, u⟩ := h3 i w ((h2 i).2 hr) hw
      rcases u with ⟨x, hx, _⟩ | ⟨v, p, r, c, st2, q1, q2, q3, q4, q5, _⟩ | ⟨p, r, c, st2, q1, q2, q3, q4, _⟩
      · exact .inl ⟨x, hx⟩
      · exact .inr (.inl ⟨v, p, r, q1, q2, q3, q4, q5⟩)
      · exact .inr (.inr ⟨p, r, q1, q2, q3, q4⟩)
  · rintro ⟨hk, hp⟩
    obtain ⟨l, h1, h2, h3⟩ := filled_all (args := args) hn hk
    obtain ⟨⟨as, g⟩, hx⟩ := complete_total (e := e) (n := n) (f := f) l (st := st) (i := 0) (fun j s st hj => by
      have hlt := (List.getElem?_eq_some_iff.1 hj).1
      obtain ⟨w, hw⟩ := (C84_given f.params args kws hn j).1
      have := h3 j w hlt hw
      rw [hj] at this
      cases this
      rw [Nat.zero_add]
      exact completeArg_total ht (hp j w ((h2 j).1 hlt) hw))
    refine ⟨as, g, ?_⟩
    unfold callFunc prepare
    rw [h1]
    simp only
    cases hcm : complete e n f st 0 l with
    | mk r1 st1 =>
      rw [hcm] at hx
      simp only at hx
      subst hx
      simp [hl]

theorem completeArg_err_all {e : CtEnv} {n : Nat} {f : CFunc} (hf : TypesFine e n f) {st : CtState} {i : Nat} {s : Slot A} {x : PyErr}
    (h : (completeArg e n f st i s).1 = .error x) : x = .typeError ∨ (x = .indexError ∧ f.params.length ≤ i ∧ ∀ a, s ≠ .obj a) := by
  by_cases hi : i < f.params.length
  · exact .inl (completeArg_err hf hi h)
  · have hp : f.params[i]? = none := List.getElem?_eq_none (by omega)
    cases s with
    | obj b => simp [completeArg] at h
    | null => simp only [completeArg, hp] at h; cases h; exact .inr ⟨rfl, by omega, by simp⟩
    | missing => simp only [completeArg, hp] at h; cases h; exact .inr ⟨rfl, by omega, by simp⟩

theorem complete_err_all {e : CtEnv} {n : Nat} {f : CFunc} (hf : TypesFine e n f) (l : List (Slot A)) : ∀ {st : CtState} {i : Nat} {x : PyErr},
    (complete e n f st i l).1 = .error x →
    x = .typeError ∨ (x = .indexError ∧ ∃ j s, l[j]? = some s ∧ f.params.length ≤ i + j ∧ ∀ a, s ≠ .obj a) := by
  induction l with
  | nil => intro st i x h; simp [complete] at h
  | cons s l ih =>
    intro st i x h
    simp only [complete] at h
    cases hc : completeArg e n f st i s with
    | mk r1 st1 =>
      rw [hc] at h
      cases r1 with
      | error y =>
        simp at h; subst h
        rcases completeArg_err_all (s := s) (st := st) (i := i) (x := y) hf (by rw [hc]) with h | ⟨h1, h2, h3⟩
        · exact .inl h
        · exact .inr ⟨h1, 0, s, rfl, h2, h3⟩
      | ok a =>
        simp only at h
        cases hr : complete e n f st1 (i + 1) l with
        | mk r2 st2 =>
          rw [hr] at h
          cases r2 with
          | error y =>
            simp at h; subst h
            rcases ih (st := st1) (i := i + 1) (x := y) (by rw [hr]) with h | ⟨h1, j, s', h2, h3, h4⟩
            · exact .inl h
            · exact .inr ⟨h1, j + 1, s', by simpa using h2, by omega, h4⟩
          | ok ag => simp at h

/-- C84: a call that does not reach the C function raises `TypeError`, except that `None` behind the last parameter
raises `IndexError`. -/
theorem C84_error (e : CtEnv) (n : Nat) (f : CFunc) (ht : TypesFine e n f) (hl : f.lockCall = false) (found : Except PyErr Unit)
    (st : CtState) (args : List (PyArg A)) (kws : List (Str × PyArg A)) (hn : (kws.map (·.1)).Nodup) (x : PyErr)
    (h : (callFunc e n f found st args kws).1 = .raised x) :
    x = .typeError ∨ (x = .indexError ∧ ∃ i v, f.params.length ≤ i ∧ args[i]? = some v ∧ v.IsNull) := by
  by_cases hk : ∀ k v, (k, v) ∈ kws → ∃ i, Names f.params k i
  · obtain ⟨l, h1, h2, h3⟩ := filled_all (args := args) hn hk
    unfold callFunc prepare at h
    rw [h1] at h
    simp only at h
    cases hcm : complete e n f st 0 l with
    | mk r1 st1 =>
      rw [hcm] at h
      cases r1 with
      | ok ag => simp [hl] at h
      | error y =>
        simp at h; subst h
        rcases complete_err_all ht l (st := st) (i := 0) (x := y) (by rw [hcm]) with h | ⟨q1, j, s, q2, q3, q4⟩
        · exact .inl h
        · rw [Nat.zero_add] at q3
          have hlt := (List.getElem?_eq_some_iff.1 q2).1
          obtain ⟨w, hw⟩ := (C84_given f.params args kws hn j).1
          have hs := h3 j w hlt hw
          rw [q2] at hs
          cases hs
          refine .inr ⟨q1, j, ?_⟩
          cases hw with
          | keyword k v hm hx => have := nameAt_lt hx.1; omega
          | position v hno ha =>
            refine ⟨v, q3, ha, ?_⟩
            cases v with
            | none => exact .inl rfl
            | null => exact .inr rfl
            | obj a => exact (q4 a rfl).elim
          | nothing hno ha =>
            rcases (h2 j).1 hlt with r | r | ⟨k, v, i, hm, hx, hle⟩
            · omega
            · have : (f.params.filter (fun p => p.2.2.isNone)).length ≤ f.params.length := List.length_filter_le _ _
              omega
            · have := nameAt_lt hx.1; omega
  · left
    have ⟨k, v, hm, hno⟩ : ∃ k v, (k, v) ∈ kws ∧ ∀ i, ¬ Names f.params k i := by grind
    have hx : f.argIndex k = none := by
      cases hx : f.argIndex k with
      | none => rfl
      | some i => exact (hno i (argIndex_iff.1 hx)).elim
    rw [C41_unknown e n f found st args kws k v hm (argIndex_none.1 hx)] at h
    cases h; rfl

/-- The signatures differ only in the text of default values. -/
def SameButDefaults (f f' : CFunc) : Prop :=
  f.ret = f'.ret ∧ f.lockCall = f'.lockCall ∧ f.resType = f'.resType ∧ f.argTypes = f'.argTypes ∧
  f.params.map (fun p => (p.1, p.2.1, p.2.2.isNone)) = f'.params.map (fun p => (p.1, p.2.1, p.2.2.isNone))

theorem argIndexFrom_map (k : Str) {ps ps' : List Param} (h : ps.map (fun p => (p.1, p.2.1, p.2.2.isNone)) =
    ps'.map (fun p => (p.1, p.2.1, p.2.2.isNone))) : ∀ i, argIndexFrom k i ps = argIndexFrom k i ps' := by
  induction ps generalizing ps' with
  | nil => cases ps' <;> simp_all
  | cons p ps ih =>
    cases ps' with
    | nil => simp at h
    | cons q ps' =>
      intro i
      simp only [List.map_cons, List.cons.injEq, Prod.mk.injEq] at h
      simp only [argIndexFrom, ih h.2, h.1.1]

theorem complete_defaults {e : CtEnv} {n : Nat} {f f' : CFunc} (h : SameButDefaults f f') (l : List (Slot A)) : ∀ (st : CtState) (i : Nat),
    complete e n f st i l = complete e n f' st i l := by
  induction l with
  | nil => intro st i; rfl
  | cons s l ih =>
    intro st i
    have hc : completeArg e n f st i s = completeArg e n f' st i s := by
      have hp : f.params[i]?.map (fun p => (p.1, p.2.1, p.2.2.isNone)) = f'.params[i]?.map (fun p => (p.1, p.2.1, p.2.2.isNone)) := by
        rw [← List.getElem?_map, ← List.getElem?_map, h.2.2.2.2]
      cases s with
      | obj a => rfl
      | _ =>
        simp only [completeArg]
        cases hx : f.params[i]? with
        | none =>
          rw [hx] at hp
          cases hy : f'.params[i]? with
          | none => rfl
          | some q => rw [hy] at hp; simp at hp
        | some p =>
          rw [hx] at hp
          cases hy : f'.params[i]? with
          | none => rw [hy] at hp; simp at hp
          | some q =>
            rw [hy] at hp
            simp only [Option.map_some, Option.some.injEq, Prod.mk.injEq] at hp
            simp only [hp.2.1]
    simp only [complete, hc, ih]

/-- C84: the default values written in the header are never passed: they do not influence any call. -/
theorem C84_defaults_unused (e : CtEnv) (n : Nat) (f f' : CFunc) (h : SameButDefaults f f') (found : Except PyErr Unit) (st : CtState)
    (args : List (PyArg A)) (kws : List (Str × PyArg A)) :
    callFunc e n f found st args kws = callFunc e n f' found st args kws := by
  have hreq : f.req = f'.req := by
    have := congrArg (fun l => (l.filter (fun (x : Option Str × CType × Bool) => x.2.2)).length) h.2.2.2.2
    simpa [CFunc.req, List.filter_map, Function.comp_def] using this
  have hkw : ∀ (kws : List (Str × PyArg A)) l, fillKw f l kws = fillKw f' l kws := by
    intro kws
    induction kws with
    | nil => intro l; rfl
    | cons x kws ih =>
      intro l
      simp only [fillKw, CFunc.argIndex, argIndexFrom_map x.1 h.2.2.2.2, ih]
  unfold callFunc prepare fillPos
  rw [hkw, hreq]
  simp only [complete_defaults h, h.2.1]

/-! ### Examples -/

/-- `int f(int a, int *p, int b = 3, int *q = 0)` -/
def dfFn : CFunc := ⟨ctTy c%"int" [], [(some c%"a", ctTy c%"int" [], none), (some c%"p", ctTy c%"int" [ctPtr], none),
  (some c%"b", ctTy c%"int" [], some c%"3"), (some c%"q", ctTy c%"int" [ctPtr], some c%"0")], false, .prim c%"c_int",
  [.prim c%"c_int", .ptr (.prim c%"c_int"), .prim c%"c_int", .ptr (.prim c%"c_int")]⟩

theorem dfFn_fine : TypesFine (cxEnv [] []) 5 dfFn := by
  constructor <;> (intro p hp; simp only [dfFn, List.mem_cons, List.not_mem_nil, or_false] at hp)
  · rcases hp with rfl | rfl | rfl | rfl <;> exact ⟨_, rfl⟩
  · intro st; rcases hp with rfl | rfl | rfl | rfl <;> exact ⟨_, rfl⟩
  · intro st; rcases hp with rfl | rfl | rfl | rfl <;> exact ⟨_, rfl⟩

/-- `f(1)`: `p` is generated, the parameters with default values are left out. -/
example : (callFunc (cxEnv [] []) 5 dfFn (.error .nameError) exStart [.obj 1] []).1 =
    .called [.obj 1, .auto (.ptr (.prim c%"c_int"))] [1] := by rfl

/-- `f(1, q=None)`: `b` in front of `q` must be given. -/
example : (callFunc (cxEnv [] []) 5 dfFn (.error .nameError) exStart [.obj 1] [(c%"q", .none)]).1 = .raised .typeError := by rfl

/-- `f(1, b=2, q=None)` -/
example : (callFunc (cxEnv [] []) 5 dfFn (.error .nameError) exStart [.obj 1] [(c%"q", .none), (c%"b", .obj 2)]).1 =
    .called [.obj 1, .auto (.ptr (.prim c%"c_int")), .obj 2, .nul (.ptr (.prim c%"c_int"))] [1] := by rfl

/-- A keyword for a parameter that is given by position wins silently; surplus arguments are passed on. -/
example : (callFunc (cxEnv [] []) 5 dfFn (.error .nameError) exStart [.obj 1, .obj 2, .obj 3, .obj 4, .obj 5] [(c%"a", .obj 9)]).1 =
    .called [.obj 9, .obj 2, .obj 3, .obj 4, .obj 5] [] := by rfl

/-- `None` behind the last parameter. -/
example : (callFunc (cxEnv [] []) 5 dfFn (.error .nameError) exStart [.obj 1, .obj 2, .obj 3, .obj 4, .none] []).1 =
    .raised .indexError := by rfl

end Pyclib
