import Verif.Props.Fill
import Verif.Props.Result
import Verif.Spec.Number
/-
C90: numbers through calls.
-/
namespace Pyclib
open Spec

mutual
theorem sameCls_refl : ∀ c : Cls, sameCls c c = true
  | .void => rfl
  | .prim p => by simp [sameCls]
  | .comp i => by simp [sameCls]
  | .ptr c => by simp [sameCls, sameCls_refl c]
  | .arr n c => by simp [sameCls, sameCls_refl c]
  | .fn s c as => by simp [sameCls, sameCls_refl c, sameAll_refl as]
theorem sameAll_refl : ∀ as : List Cls, sameAll as as = true
  | [] => rfl
  | a :: as => by simp [sameAll, sameCls_refl a, sameAll_refl as]
end

mutual
theorem sameCls_eq : ∀ c d : Cls, sameCls c d = true → c = d
  | .void, d, h => by cases d <;> simp [sameCls] at h ⊢
  | .prim p, d, h => by cases d <;> simp [sameCls] at h ⊢; exact h
  | .comp i, d, h => by cases d <;> simp [sameCls] at h ⊢; exact h
  | .ptr c, d, h => by cases d <;> simp [sameCls] at h ⊢; exact sameCls_eq c _ h
  | .arr n c, d, h => by cases d <;> simp [sameCls] at h ⊢; exact ⟨h.1, sameCls_eq c _ h.2⟩
  | .fn s c as, d, h => by cases d <;> simp [sameCls] at h ⊢; exact ⟨h.1.1, sameCls_eq c _ h.1.2, sameAll_eq as _ h.2⟩
theorem sameAll_eq : ∀ as bs : List Cls, sameAll as bs = true → as = bs
  | [], bs, h => by cases bs <;> simp [sameAll] at h ⊢
  | a :: as, bs, h => by cases bs <;> simp [sameAll] at h ⊢; exact ⟨sameCls_eq a _ h.1, sameAll_eq as _ h.2⟩
end

theorem ptr_self (c : Cls) : sameCls c (.ptr c) = false := by
  cases h : sameCls c (.ptr c) with
  | false => rfl
  | true =>
    have h2 := congrArg sizeOf (sameCls_eq _ _ h)
    have h3 : sizeOf (Cls.ptr c) = 1 + sizeOf c := rfl
    rw [h3] at h2
    omega

section
variable {cfg : Cfg} {junk : Str → Str} {s : Store DefVal} {types : Dict Str Str} {exports : Str → Bool} {abi : Abi} {z : CtSizes}
  {sgn : Str → Option Bool} {conv : Cls → NObj → Except PyErr CArg}

/-- A plain type has one class. -/
theorem mirrors_plain (hl : LibOk cfg types s) (hA : AbiMatch abi types z) {S : Dict Str Nat} {v : CTy} (hv : PlainTy v) :
    ∀ {c c' : Cls}, Mirrors types S c v → Mirrors types S c' v → c = c' := by
  have he := hA.enums
  have hst : ∀ tag, dget types (c%"struct " ++ tag) = none := hl.simple false
  have hun : ∀ tag, dget types (c%"union " ++ tag) = none := hl.simple true
  induction hv with
  | base b hb =>
    intro c c' h h'
    cases h with
    | void => exact (hb rfl).elim
    | prim _ p h =>
      generalize hx : CTy.base b = x at h'
      cases h' with
      | void => cases hx; exact (hb rfl).elim
      | prim _ p' h' => cases hx; rw [h] at h'; cases h'; rfl
      | enum tag => cases hx; rw [he] at h; cases h
      | struct tag => cases hx; rw [hst] at h; cases h
      | union tag => cases hx; rw [hun] at h; cases h
      | _ => cases hx
    | enum tag =>
      generalize hx : CTy.base (c%"enum " ++ tag) = x at h'
      cases h' with
      | void => simp at hx
      | prim _ p' h' => cases hx; rw [he] at h'; cases h'
      | enum tag => rfl
      | struct tag => simp at hx
      | union tag => simp at hx
      | _ => cases hx
    | struct tag id h =>
      generalize hx : CTy.base (c%"struct " ++ tag) = x at h'
      cases h' with
      | void => simp at hx
      | prim _ p' h' => cases hx; rw [hst] at h'; cases h'
      | enum tag => simp at hx
      | struct tag' id' h' => simp at hx; subst hx; rw [h] at h'; cases h'; rfl
      | union tag => simp at hx
      | _ => cases hx
    | union tag id h =>
      generalize hx : CTy.base (c%"union " ++ tag) = x at h'
      cases h' with
      | void => simp at hx
      | prim _ p' h' => cases hx; rw [hun] at h'; cases h'
      | enum tag => simp at hx
      | struct tag => simp at hx
      | union tag' id' h' => simp at hx; subst hx; rw [h] at h'; cases h'; rfl
      | _ => cases hx
  | ptr v hv ih =>
    intro c c' h h'
    cases h with
    | special b p h =>
      cases h' with
      | special _ p' h' => rw [h] at h'; cases h'; rfl
      | ptr _ _ _ ho => rw [ho.2 b rfl] at h; cases h
    | ptr d _ h ho =>
      cases h' with
      | special b p h' => rw [ho.2 b rfl] at h'; cases h'
      | ptr d' _ h' _ => rw [ih h h']
      | fnptr => cases hv
    | fnptr => cases hv
  | voidPtr =>
    intro c c' h h'
    cases h with
    | special b p h =>
      cases h' with
      | special _ p' h' => rw [h] at h'; cases h'; rfl
      | ptr _ _ _ ho => rw [ho.2 _ rfl] at h; cases h
    | ptr d _ h ho => exact absurd (ho.2 c%"void" rfl) (by decide)
  | arr n v hv ih =>
    intro c c' h h'
    obtain ⟨d, rfl, hd⟩ := arr_cls h
    obtain ⟨d', rfl, hd'⟩ := arr_cls h'
    rw [ih hd hd']

theorem pointed_cls {S : Dict Str Nat} {c : Cls} {w : CTy} (hw : Pointed w) (hc : Mirrors types S c (.ptr w)) : ∃ c', c = .ptr c' ∧ Mirrors types S c' w := by
  cases hc with
  | special b p h => rw [hw.2 b rfl] at h; cases h
  | ptr c' _ h _ => exact ⟨c', rfl, h⟩
  | fnptr => cases hw.1

/-! ### Arguments -/

theorem lower_num (hl : LibOk cfg types s) (hA : AbiMatch abi types z) (hS : SignMatch types sgn) {S : Dict Str Nat} {v : CTy} {sz : Nat} {sg : Bool}
    (h : IntTy abi sgn v sz sg) {c : Cls} (hc : Mirrors types S c v) (m : Mem Bytes) (x : Int) :
    lowerArg z conv m c (.given (.int x)) = .ok (.value (leBytes sz x)) := by
  obtain ⟨p, al, rfl, h1, h2⟩ := intTy_cls hl hA hS h hc
  simp only [lowerArg, fromParam, h1, h2]

theorem text_cls {S : Dict Str Nat} {t : Str} {c : Cls} (ht : t = c%"char" ∨ t = c%"void") (hc : Mirrors types S c (.ptr (.base t))) :
    c = .prim c%"c_char_p" ∨ c = .prim c%"c_void_p" := by
  cases hc with
  | special _ p h =>
    rcases ht with rfl | rfl
    · cases h; exact .inl rfl
    · cases h; exact .inr rfl
  | ptr _ _ _ ho => rcases ht with rfl | rfl <;> cases ho.2 _ rfl

theorem from_text {S : Dict Str Nat} {t : Str} {c : Cls} (ht : t = c%"char" ∨ t = c%"void") (hc : Mirrors types S c (.ptr (.base t)))
    (m : Mem Bytes) (l : List Nat) : fromParam z conv m c (.bytes l) = .ok (.text (l ++ [0])) := by
  rcases text_cls ht hc with rfl | rfl <;> rfl

theorem from_same (m : Mem Bytes) (c : Cls) (b : Nat) (hc : ∀ n d, c ≠ .arr n d) : fromParam z conv m c (.inst c b) = .ok (.copy (m.cell b)) := by
  simp only [fromParam, sameCls_refl, if_true]

theorem not_arr {S : Dict Str Nat} {v : CTy} {c : Cls} (hv : ∀ n w, v ≠ .arr n w) (hc : Mirrors types S c v) : ∀ n d, c ≠ .arr n d := by
  rintro n d rfl
  cases hc with
  | arr n c v => exact hv _ _ rfl

theorem from_target (m : Mem Bytes) (c : Cls) (b : Nat) : fromParam z conv m (.ptr c) (.inst c b) = .ok (.addr b) := by
  simp only [fromParam, ptr_self, sameCls_refl, if_true]
  rfl

theorem from_elems (m : Mem Bytes) (n : Int) (c : Cls) (b : Nat) : fromParam z conv m (.ptr c) (.inst (.arr n c) b) = .ok (.addr b) := by
  simp only [fromParam, show sameCls (.arr n c) (.ptr c) = false from rfl, sameCls_refl, if_true]
  split
  · rename_i h; cases h
  · split <;> rfl

/-- Only the conversions left to ctypes fail. -/
theorem from_error {m : Mem Bytes} {c : Cls} {o : NObj} {x : PyErr} (h : fromParam z conv m c o = .error x) : conv c o = .error x := by
  unfold fromParam at h
  repeat' split at h
  all_goals first | exact h | cases h

/-- Arguments one by one. -/
theorem lower_all (m : Mem Bytes) : ∀ (cs : List Cls) (vs : List (PyV NObj Bytes)), cs.length = vs.length →
    (∃ as : List CArg, lowerArgs z conv m cs vs = .ok as ∧ as.length = cs.length ∧
      ∀ (i : Nat) c v, cs[i]? = some c → vs[i]? = some v → ∃ a, as[i]? = some a ∧ lowerArg z conv m c v = .ok a) ∨
    ∃ x, lowerArgs z conv m cs vs = .error x ∧ ∃ (i : Nat) (c : Cls) (v : PyV NObj Bytes), cs[i]? = some c ∧ vs[i]? = some v ∧ lowerArg z conv m c v = .error x := by
  intro cs
  induction cs with
  | nil =>
    intro vs h
    cases vs with
    | nil => exact .inl ⟨[], rfl, rfl, by simp⟩
    | cons => cases h
  | cons c cs ih =>
    intro vs h
    cases vs with
    | nil => cases h
    | cons v vs =>
      simp only [lowerArgs]
      cases hv : lowerArg z conv m c v with
      | error x => exact .inr ⟨x, rfl, 0, c, v, rfl, rfl, hv⟩
      | ok a =>
        rcases ih vs (by simpa using h) with ⟨as, h1, h2, h3⟩ | ⟨x, h1, i, c', v', h2, h3, h4⟩
        · simp only [h1]
          refine .inl ⟨_, rfl, by simp [h2], fun i c' v' hc hv' => ?_⟩
          cases i with
          | zero => simp at hc hv'; subst hc; subst hv'; exact ⟨a, rfl, hv⟩
          | succ i => simp at hc hv'; simpa using h3 i c' v' hc hv'
        · simp only [h1]
          exact .inr ⟨x, rfl, i + 1, c', v', by simpa using h2, by simpa using h3, h4⟩

theorem mirrorsArgs_get {S : Dict Str Nat} : ∀ {cl : List Cls} {cs : List (Option Str × CTy)}, MirrorsArgs types S cl cs → cl.length = cs.length ∧
    ∀ (i : Nat) name v, cs[i]? = some (name, v) → ∃ c, cl[i]? = some c ∧ Mirrors types S c v
  | _, _, .nil => ⟨rfl, by simp⟩
  | _, _, .cons c n v cls cs h ht => by
    obtain ⟨h1, h2⟩ := mirrorsArgs_get ht
    refine ⟨by simp [h1], fun i name w hi => ?_⟩
    cases i with
    | zero => simp at hi; obtain ⟨rfl, rfl⟩ := hi; exact ⟨c, rfl, h⟩
    | succ i => simp at hi; simpa using h2 i name w hi

theorem passAll_nul {A R : Type} (zr : R) : ∀ (as : List (Passed A)) (m : Mem R) (i : Nat) c, as[i]? = some (.nul c) →
    ∃ b, (passAll zr m as).1[i]? = some (.inst c b) := by
  intro as
  induction as with
  | nil => intro m i c h; simp at h
  | cons a as ih =>
    intro m i c h
    cases i with
    | zero => simp at h; subst h; exact ⟨_, rfl⟩
    | succ i =>
      simp at h
      cases a with
      | obj a => simpa [passAll] using ih m i c h
      | nul d => simpa [passAll] using ih _ i c h
      | auto d => simpa [passAll] using ih _ i c h

/-- The C function gets every argument that can be passed. -/
theorem passable_lower (hl : LibOk cfg types s) (hA : AbiMatch abi types z) (hS : SignMatch types sgn) {S : Dict Str Nat} {v : CTy} {c : Cls}
    (hc : Mirrors types S c v) {oa : Option (PyArg NObj)} (hp : Passable types S abi sgn v oa) {a : Passed NObj} (ha : ArgRight types S v oa a)
    (m : Mem Bytes) {x : PyV NObj Bytes} (hobj : ∀ o, a = .obj o → x = .given o) (hnul : ∀ d, a = .nul d → ∃ b, x = .inst d b)
    (hauto : ∀ d, a = .auto d → ∃ b, x = .ref d.target b) : ∃ r, lowerArg z conv m c x = .ok r := by
  cases hp with
  | num i sz sg h =>
    cases ha with
    | obj _ => rw [hobj _ rfl]; exact ⟨_, lower_num hl hA hS h hc m i⟩
    | nul _ d hw => rcases hw with hw | hw <;> cases hw
  | text l t ht hv =>
    subst hv
    cases ha with
    | obj _ => rw [hobj _ rfl]; exact ⟨_, from_text (z := z) (conv := conv) ht hc m l⟩
    | nul _ d hw => rcases hw with hw | hw <;> cases hw
  | same d b hv h =>
    cases ha with
    | obj _ =>
      rw [hobj _ rfl]
      cases mirrors_plain hl hA hv hc h
      simp only [lowerArg, fromParam, sameCls_refl, if_true]
      split <;> exact ⟨_, rfl⟩
    | nul _ d hw => rcases hw with hw | hw <;> cases hw
  | target w d b hv hw h =>
    subst hv
    cases ha with
    | obj _ =>
      rw [hobj _ rfl]
      obtain ⟨c', rfl, hc'⟩ := pointed_cls hw hc
      cases mirrors_plain hl hA hw.1 hc' h
      exact ⟨_, from_target (z := z) (conv := conv) m _ b⟩
    | nul _ d hw => rcases hw with hw | hw <;> cases hw
  | elems w n d b hv hw h =>
    subst hv
    cases ha with
    | obj _ =>
      rw [hobj _ rfl]
      obtain ⟨c', rfl, hc'⟩ := pointed_cls hw hc
      cases mirrors_plain hl hA hw.1 hc' h
      exact ⟨_, from_elems (z := z) (conv := conv) m n _ b⟩
    | nul _ d hw => rcases hw with hw | hw <;> cases hw
  | null y hy hv =>
    cases ha with
    | obj _ => rcases hy with hy | hy <;> cases hy
    | nul _ d _ _ h =>
      obtain ⟨b, rfl⟩ := hnul d rfl
      cases mirrors_plain hl hA hv hc h
      simp only [lowerArg, fromParam, sameCls_refl, if_true]
      split <;> exact ⟨_, rfl⟩
  | omitted w hv hw =>
    subst hv
    cases ha with
    | auto d ho h =>
      obtain ⟨b, rfl⟩ := hauto d rfl
      obtain ⟨_, h2⟩ := auto_target h ho hw.2
      obtain ⟨c', rfl, hc'⟩ := pointed_cls hw hc
      cases mirrors_plain hl hA hw.1 hc' h2
      exact ⟨.addr b, by simp only [lowerArg, sameCls_refl, if_true]⟩

/-! ### Reading -/

theorem range_part (x : Bytes) {o n N : Nat} (h : o + n ≤ N) : ((bytesFrom x 0 N).drop o).take n = bytesFrom x o n := by
  apply List.ext_getElem?
  intro i
  simp only [bytesFrom, List.getElem?_take, List.getElem?_drop, List.getElem?_map]
  by_cases hi : i < n
  · rw [if_pos hi, List.getElem?_eq_getElem (by simp; omega), List.getElem?_eq_getElem (by simp; omega)]
    simp
  · rw [if_neg hi, List.getElem?_eq_none (by simp; omega)]
    rfl

theorem num_unique {n sz : Nat} {sg : Bool} {r : Int} (hn : n < 256 ^ sz) (h : (256 ^ sz : Int) ∣ (n : Int) - r) (hr : InRange sz sg r) :
    (if sg && decide (2 * n ≥ 256 ^ sz) then (n : Int) - 256 ^ sz else n) = r := by
  have hc : ((256 ^ sz : Nat) : Int) = 256 ^ sz := by simp
  generalize hM : (256 ^ sz : Nat) = M at *
  rw [← hc] at h ⊢
  unfold InRange at hr
  rw [← hc] at hr
  obtain ⟨q, hq⟩ := h
  cases sg with
  | false =>
    simp at hr ⊢
    have h1 : -(M : Int) < M * q := by omega
    have h2 : M * q < (M : Int) := by omega
    have hM0 : (0 : Int) < M := by omega
    have : q = 0 := by
      have a1 : -1 < q := by
        apply Int.lt_of_mul_lt_mul_left (a := (M : Int)) (by omega) (by omega)
      have a2 : q < 1 := by
        apply Int.lt_of_mul_lt_mul_left (a := (M : Int)) (by omega) (by omega)
      omega
    subst this
    omega
  | true =>
    simp at hr ⊢
    have hM0 : (0 : Int) < M := by omega
    by_cases hh : M ≤ 2 * n
    · rw [if_pos hh]
      have a1 : 0 < q := by
        apply Int.lt_of_mul_lt_mul_left (a := (M : Int)) (by omega) (by omega)
      have a2 : q < 2 := by
        apply Int.lt_of_mul_lt_mul_left (a := (M : Int)) (by omega) (by omega)
      have : q = 1 := by omega
      subst this
      omega
    · rw [if_neg hh]
      have a1 : -1 < q := by
        apply Int.lt_of_mul_lt_mul_left (a := (M : Int)) (by omega) (by omega)
      have a2 : q < 1 := by
        apply Int.lt_of_mul_lt_mul_left (a := (M : Int)) (by omega) (by omega)
      have : q = 0 := by omega
      subst this
      omega

theorem leNum_lt : ∀ bs : List Nat, (∀ b ∈ bs, b < 256) → leNum bs < 256 ^ bs.length
  | [], _ => by simp [leNum]
  | b :: bs, h => by
    have h1 := leNum_lt bs (fun x hx => h x (by simp [hx]))
    have h2 := h b (by simp)
    simp only [leNum, List.length_cons, Nat.pow_succ]
    omega

/-- Python reads the number that is in an object. -/
theorem read_obj (hs : TablesWf cfg junk s) (hl : LibOk cfg types s) (ho : OneTag s) (hA : AbiMatch abi types z) (hS : SignMatch types sgn)
    {st : LState CtObj CtState} (hi : LibInv cfg types s exports st) {v w : CTy} {c : Cls} {sz al wsz o : Nat} {sg : Bool} {p : List Nat} {x : Bytes} {r : Int}
    (hc : Mirrors types st.b.structs c v) (hly : Layout cfg s abi false v sz al) (hp : PartAt cfg s abi v p o w) (hw : IntTy abi sgn w wsz sg)
    (hx : Holds wsz sg x o r) : ∃ K, ∀ k, K ≤ k → pyRead z st.b.classes k c (objBytes z st.b.classes k c x) p = some r := by
  obtain ⟨K1, g1⟩ := (layout_right hs hl ho hA hi hly).2 c hc
  obtain ⟨⟨cw, q1, K2, q2⟩, q3⟩ := at_cls hs hl ho hA hi hp c hc
  obtain ⟨wal, hwl⟩ := intTy_layout (cfg := cfg) (s := s) hw
  have hle := q3 _ _ _ _ hly hwl
  obtain ⟨pp, al', rfl, e1, e2⟩ := intTy_cls hl hA hS hw q1
  refine ⟨max K1 K2, fun k hk => ?_⟩
  simp only [pyRead, q2 k (by omega), e1, e2, objBytes, g1 k (by omega), range_part x hle, Option.some.injEq]
  obtain ⟨h1, h2, h3, h4⟩ := hx
  rw [bytesVal_leNum] at h3
  have h5 := leNum_lt _ h2
  rw [h1] at h5
  exact num_unique h5 h3 h4

theorem prim_path (hs : TablesWf cfg junk s) (hl : LibOk cfg types s) (ho : OneTag s) (hA : AbiMatch abi types z)
    {st : LState CtObj CtState} (hi : LibInv cfg types s exports st) {v w : CTy} {pn : Str} {o : Nat} {p : List Nat}
    (hc : Mirrors types st.b.structs (.prim pn) v) (hp : PartAt cfg s abi v p o w) : p = [] := by
  obtain ⟨⟨cw, q1, K2, q2⟩, _⟩ := at_cls hs hl ho hA hi hp _ hc
  have := q2 K2 (by omega)
  cases p with
  | nil => rfl
  | cons => simp [clsAt] at this

/-- `pyNum` of the object Python shows for a C object. -/
theorem num_shown (hs : TablesWf cfg junk s) (hl : LibOk cfg types s) (ho : OneTag s) (hA : AbiMatch abi types z) (hS : SignMatch types sgn)
    {st : LState CtObj CtState} (hi : LibInv cfg types s exports st) {v w : CTy} {c : Cls} {sz al wsz o : Nat} {sg : Bool} {p : List Nat} {m : Mem Bytes} {b : Nat} {r : Int}
    (hc : Mirrors types st.b.structs c v) (hly : Layout cfg s abi false v sz al) (hp : PartAt cfg s abi v p o w) (hw : IntTy abi sgn w wsz sg)
    (hx : Holds wsz sg (m.cell b) o r) : ∃ K, ∀ k, K ≤ k → pyNum z st.b.classes k m (shown m.cell c b) p = some r := by
  obtain ⟨K, h⟩ := read_obj hs hl ho hA hS hi hc hly hp hw hx
  refine ⟨K, fun k hk => ?_⟩
  cases c with
  | prim pn => cases prim_path hs hl ho hA hi hc hp; exact h k hk
  | _ => exact h k hk

/-- C90 (partial: `LibOk`, fair calls, integers; objects passed as in `Passable`): in the library of a header, after any use made of it before, a call
raises `KeyError` if the shared library lacks the function, or `TypeError` if an argument is unfit; or some argument is of a kind not considered, and
raises (an object given: because ctypes does not convert it); or the C function is called, and the numbers are right: those given arrive converted as in C, objects given for pointers are passed
by address, omitted pointers point to new zeroed objects, and the numbers the C function leaves in them and in its result are those the caller
reads. -/
theorem C90_calls_partial (hs : TablesWf cfg junk s) (hl : LibOk cfg types s) (hT : PtrTable types) (ho : OneTag s)
    (hA : AbiMatch abi types z) (hS : SignMatch types sgn) (exports : Str → Bool) :
    ∃ N, ∀ n, N ≤ n → ∀ us : List (Use NObj), (∀ u ∈ us, FairUse cfg types s u) →
      ∀ (f : Str) (ps : List Param) (cs : List (Option Str × CTy)) (args : List (PyArg NObj)) (kws : List (Str × PyArg NObj)),
      FairUse cfg types s (.invoke f args kws : Use NObj) → FairFn cfg types s f ps cs →
      ∀ (conv : Cls → NObj → Except PyErr CArg) (bodies : Str → CBody) (ext : NObj → PyV NObj Bytes) (m : Mem Bytes), ∃ res st' m',
      runNum (hdrEnv cfg types s) n (hdrLib cfg types s n exports false) z conv bodies
        (useAll (hdrEnv cfg types s) n (hdrLib cfg types s n exports false) (hdrStart s) us).2 m f args kws = (res, st', m') ∧
      st' = (useAll (hdrEnv cfg types s) n (hdrLib cfg types s n exports false) (hdrStart s) (us ++ [.invoke f args kws])).2 ∧
      ((exports f = false ∧ res = .error .keyError ∧ m' = m) ∨
       (exports f = true ∧ (∃ (i : Nat) (name : Option Str) (v : CTy), cs[i]? = some (name, v) ∧ Unfit v (argFor cs args kws i)) ∧
         res = .error .typeError ∧ m' = m) ∨
       (exports f = true ∧ ∃ (i : Nat) (name : Option Str) (v : CTy) (x : PyErr), cs[i]? = some (name, v) ∧
         ¬ Passable types st'.b.structs abi sgn v (argFor cs args kws i) ∧ res = .error x ∧
         ∀ o, argFor cs args kws i = some (.obj o) → ∃ c, Mirrors types st'.b.structs c v ∧ conv c o = .error x) ∨
       (exports f = true ∧ ∃ res' r q u cargs m0, res = .ok res' ∧ dget (s.defs .functions) f = some (.func (.func r ps q)) ∧ CMeaning cfg s r u ∧
         NumbersRight types st'.b.structs cfg s abi sgn u cs args kws cargs m m0 m' (bodies f cargs m0).1 (bodies f cargs m0).2
           (readOps st'.b.classes ext m') res' (fun v p r => ∃ K, ∀ k, K ≤ k → pyNum z st'.b.classes k m' v p = some r))) := by
  obtain ⟨N, hb, hp⟩ := use_bound hs hl
  refine ⟨N, fun n hn us hu f ps cs args kws hfu hf conv bodies ext m => ?_⟩
  have hinv := (uses_right (A := NObj) (exports := exports) hs hl hT hb hp hn us
    ⟨start_inv, ⟨by simp [hdrStart, LState.init], by simp [hdrStart, LState.init]⟩⟩ hu).1
  have happ : ∀ (us vs : List (Use NObj)) st, (useAll (hdrEnv cfg types s) n (hdrLib cfg types s n exports false) st (us ++ vs)).2 =
      (useAll (hdrEnv cfg types s) n (hdrLib cfg types s n exports false) (useAll (hdrEnv cfg types s) n (hdrLib cfg types s n exports false) st us).2 vs).2 := by
    intro us
    induction us with
    | nil => intro vs st; rfl
    | cons u us ih => intro vs st; simp only [List.cons_append, useAll]; exact ih vs _
  rw [happ]
  generalize (useAll (hdrEnv cfg types s) n (hdrLib cfg types s n exports false) (hdrStart s) us).2 = st at hinv
  obtain ⟨res1, st1, e1, h⟩ := call_sees (R := Bytes) hs hl hT hb hp hn hinv hfu hf
  simp only [runNum, e1, useAll, useLib]
  rcases h with ⟨hx, rfl⟩ | ⟨hx, g, out, b', rfl, hc, hi', hma, ⟨h1, rfl⟩ | ⟨h1, as, gs, r, q, u, rfl, h2, h3, hlen, hargs, h4⟩⟩
  · exact ⟨_, _, _, rfl, rfl, .inl ⟨hx, rfl, rfl⟩⟩
  · simp only [hc]
    exact ⟨_, _, _, rfl, rfl, .inr (.inl ⟨hx, h1, rfl, rfl⟩)⟩
  simp only [hc]
  obtain ⟨ml, mg⟩ := mirrorsArgs_get hma
  obtain ⟨p1, p2, p3, p4, p5, p6, p7⟩ := passAll_ok (fun _ => 0 : Bytes) as m
  have p8 := passAll_nul (fun _ => 0 : Bytes) as m
  -- the object passed for each parameter
  have hobj : ∀ (i : Nat) name v, cs[i]? = some (name, v) → ∃ c a x, g.argTypes[i]? = some c ∧ Mirrors types b'.structs c v ∧ as[i]? = some a ∧
      ArgRight types b'.structs v (argFor cs args kws i) a ∧ (passAll (fun _ => 0 : Bytes) m as).1[i]? = some x ∧
      (∀ o, a = .obj o → x = .given o) ∧ (∀ d, a = .nul d → ∃ b, x = .inst d b) ∧ (∀ d, a = .auto d → ∃ b, x = .ref d.target b) := by
    intro i name v hi
    obtain ⟨c, hc1, hc2⟩ := mg i name v hi
    obtain ⟨a, ha1, ha2⟩ := hargs i name v hi
    have hlt : i < (passAll (fun _ => 0 : Bytes) m as).1.length := by
      rw [p1, hlen]; exact (List.getElem?_eq_some_iff.1 hi).1
    refine ⟨c, a, _, hc1, hc2, ha1, ha2, List.getElem?_eq_getElem hlt, ?_, ?_, ?_⟩
    · rintro o rfl
      have := p6 i o ha1
      rw [List.getElem?_eq_getElem hlt] at this
      exact Option.some.inj this
    · rintro d rfl
      obtain ⟨b, hb⟩ := p8 i d ha1
      rw [List.getElem?_eq_getElem hlt] at hb
      exact ⟨b, Option.some.inj hb⟩
    · rintro d rfl
      obtain ⟨b, hb⟩ := p7 i d ha1
      rw [List.getElem?_eq_getElem hlt] at hb
      exact ⟨b, Option.some.inj hb⟩
  rcases lower_all (z := z) (conv := conv) (passAll (fun _ => 0 : Bytes) m as).2 g.argTypes (passAll (fun _ => 0 : Bytes) m as).1 (by rw [ml, p1, hlen]) with
    ⟨cargs, w1, w2, w3⟩ | ⟨x, w1, i, c, v, w2, w3, w4⟩
  swap
  · -- some argument is not converted
    simp only [w1]
    refine ⟨_, _, _, rfl, rfl, .inr (.inr (.inl ⟨hx, ?_⟩))⟩
    have hlt : i < cs.length := by rw [← ml]; exact (List.getElem?_eq_some_iff.1 w2).1
    obtain ⟨c', a, x', k1, k2, k3, k4, k5, k6, k7, k8⟩ := hobj i cs[i].1 cs[i].2 (List.getElem?_eq_getElem hlt)
    rw [w2] at k1; cases k1
    rw [w3] at k5; cases k5
    refine ⟨i, cs[i].1, cs[i].2, x, List.getElem?_eq_getElem hlt, fun hpass => ?_, rfl, fun o hoa => ⟨c, k2, ?_⟩⟩
    · obtain ⟨r', hr'⟩ := passable_lower (conv := conv) hl hA hS k2 hpass k4 (passAll (fun _ => 0 : Bytes) m as).2 k6 k7 k8
      rw [w4] at hr'; cases hr'
    · rw [hoa] at k4
      cases k4 with
      | nul _ d hw => rcases hw with hw | hw <;> cases hw
      | obj _ =>
        rw [k6 _ rfl] at w4
        exact from_error w4
  · simp only [w1]
    obtain ⟨hra, hO⟩ := h4 (fun _ => 0) (fun _ m => bodies f cargs m) ext m
    have hlow : ∀ (i : Nat) name v, cs[i]? = some (name, v) → ∃ c a x y, Mirrors types b'.structs c v ∧ as[i]? = some a ∧
        ArgRight types b'.structs v (argFor cs args kws i) a ∧ (passAll (fun _ => 0 : Bytes) m as).1[i]? = some x ∧
        (∀ o, a = .obj o → x = .given o) ∧ (∀ d, a = .nul d → ∃ b, x = .inst d b) ∧ (∀ d, a = .auto d → ∃ b, x = .ref d.target b) ∧
        cargs[i]? = some y ∧ lowerArg z conv (passAll (fun _ => 0 : Bytes) m as).2 c x = .ok y := by
      intro i name v hi
      obtain ⟨c, a, x, k1, k2, k3, k4, k5, k6, k7, k8⟩ := hobj i name v hi
      obtain ⟨y, y1, y2⟩ := w3 i c x k1 k5
      exact ⟨c, a, x, y, k2, k3, k4, k5, k6, k7, k8, y1, y2⟩
    refine ⟨_, _, _, rfl, rfl, .inr (.inr (.inr ⟨hx, _, r, q, u, cargs, (passAll (fun _ => 0 : Bytes) m as).2, rfl, h2, h3, ?_⟩))⟩
    generalize hrp : runProc (fun _ => 0) (fun _ m => bodies f cargs m) g as gs m = rp at hra hO
    obtain ⟨res', m'⟩ := rp
    simp only at hra hO ⊢
    refine ⟨by rw [w2, ml], hO.before, hO.after, ?_, ?_, ?_, ?_, ?_, ?_, ?_, ?_, ?_⟩
    · intro i name v x sz sg hi ha hint
      obtain ⟨c, a, x', y, k2, k3, k4, k5, k6, k7, k8, y1, y2⟩ := hlow i name v hi
      rw [ha] at k4
      cases k4 with
      | nul _ d hw => rcases hw with hw | hw <;> cases hw
      | obj _ =>
        rw [k6 _ rfl, lower_num hl hA hS hint k2] at y2
        cases y2
        exact ⟨_, _, y1, toRange_conv sz sg x, leBytes_stored sz sg x⟩
    · intro i name t l hi ht ha
      obtain ⟨c, a, x', y, k2, k3, k4, k5, k6, k7, k8, y1, y2⟩ := hlow i name _ hi
      rw [ha] at k4
      cases k4 with
      | nul _ d hw => rcases hw with hw | hw <;> cases hw
      | obj _ =>
        rw [k6 _ rfl] at y2
        simp only [lowerArg] at y2
        rw [from_text ht k2] at y2
        cases y2
        exact y1
    · intro i name w a hi ha hn' hpl
      obtain ⟨c, a', x', y, k2, k3, k4, k5, k6, k7, k8, y1, y2⟩ := hlow i name _ hi
      rw [ha] at k4
      cases k4 with
      | obj _ => rcases hn' with hw | hw <;> cases hw
      | nul _ d _ _ hm =>
        obtain ⟨b, rfl⟩ := k7 d rfl
        cases mirrors_plain hl hA hpl k2 hm
        simp only [lowerArg] at y2
        rw [from_same _ _ _ (not_arr (by simp) k2)] at y2
        cases y2
        refine ⟨_, y1, fun j => ?_⟩
        rw [(p4 i _ b k5 rfl).2.2]
    · intro i name v c b hi hpl hna ha hm
      obtain ⟨c', a', x', y, k2, k3, k4, k5, k6, k7, k8, y1, y2⟩ := hlow i name _ hi
      rw [ha] at k4
      cases k4 with
      | nul _ d hw => rcases hw with hw | hw <;> cases hw
      | obj _ =>
        cases mirrors_plain hl hA hpl k2 hm
        rw [k6 _ rfl] at y2
        simp only [lowerArg] at y2
        rw [from_same _ _ _ (not_arr hna k2)] at y2
        cases y2
        exact y1
    · intro i name n' w c b hi hpl ha hm
      obtain ⟨c', a', x', y, k2, k3, k4, k5, k6, k7, k8, y1, y2⟩ := hlow i name _ hi
      rw [ha] at k4
      cases k4 with
      | nul _ d hw => rcases hw with hw | hw <;> cases hw
      | obj _ =>
        cases mirrors_plain hl hA hpl k2 hm
        rw [k6 _ rfl] at y2
        cases hpl with
        | arr k v hv =>
          cases hm with
          | arr _ d _ hn hd =>
            simp only [lowerArg, fromParam, sameCls_refl, if_true] at y2
            cases y2
            exact y1
    · intro i name w c b hi hpt ha hm
      obtain ⟨c', a', x', y, k2, k3, k4, k5, k6, k7, k8, y1, y2⟩ := hlow i name _ hi
      rw [ha] at k4
      cases k4 with
      | nul _ d hw => rcases hw with hw | hw <;> cases hw
      | obj _ =>
        obtain ⟨c'', rfl, hc''⟩ := pointed_cls hpt k2
        rw [k6 _ rfl] at y2
        simp only [lowerArg] at y2
        rcases hm with hm | ⟨n', d, rfl, hm⟩
        · cases mirrors_plain hl hA hpt.1 hc'' hm
          rw [from_target] at y2
          cases y2
          exact y1
        · cases mirrors_plain hl hA hpt.1 hc'' hm
          rw [from_elems] at y2
          cases y2
          exact y1
    · intro i name w sz al hi ha hpt hly
      obtain ⟨c', a', x', y, k2, k3, k4, k5, k6, k7, k8, y1, y2⟩ := hlow i name _ hi
      obtain ⟨c, b, o1, o2, o3, o4, o5, o6⟩ := hO.omitted i name w hi ha hpt.2
      rw [hra, k5] at o1
      cases o1
      obtain ⟨c'', rfl, hc''⟩ := pointed_cls hpt k2
      cases mirrors_plain hl hA hpt.1 hc'' o2
      simp only [lowerArg, sameCls_refl, if_true] at y2
      cases y2
      refine ⟨b, y1, o3, o4, fun j => by rw [o5], fun hcl p o W wsz sg r hpa hint hho => ?_⟩
      obtain ⟨o7, o8⟩ := o6 hcl
      refine ⟨_, o7, o8, ?_⟩
      refine num_shown hs hl ho hA hS hi' o2 hly hpa hint ?_
      rw [hO.after b o4]
      exact hho
    · intro i j b ha ha' hb1 hb2
      have hli : i < cs.length := by rw [← ml, ← w2]; exact (List.getElem?_eq_some_iff.1 hb1).1
      have hlj : j < cs.length := by rw [← ml, ← w2]; exact (List.getElem?_eq_some_iff.1 hb2).1
      have key : ∀ i, i < cs.length → argFor cs args kws i = none → cargs[i]? = some (.addr b) →
          ∃ x, (passAll (fun _ => 0 : Bytes) m as).1[i]? = some x ∧ block x = some b := by
        intro i hli ha hb1
        obtain ⟨c', a', x', y, k2, k3, k4, k5, k6, k7, k8, y1, y2⟩ := hlow i _ _ (List.getElem?_eq_getElem hli)
        rw [ha] at k4
        cases k4 with
        | auto d =>
          obtain ⟨b0, rfl⟩ := k8 d rfl
          rw [hb1] at y1; cases y1
          refine ⟨_, k5, ?_⟩
          simp only [lowerArg] at y2
          split at y2
          · split at y2 <;> cases y2; rfl
          · split at y2 <;> cases y2; rfl
          · cases y2
      obtain ⟨x, x1, x2⟩ := key i hli ha hb1
      obtain ⟨x', x3, x4⟩ := key j hlj ha' hb2
      exact p5 i j x x' b x1 x3 x2 x4
    · intro sz al hly hcl p o W wsz sg r hpa hint hho
      have hret := hO.result hcl
      generalize res'.value (readOps b'.classes ext m') = V at hret
      cases hret with
      | void h =>
        subst h
        exfalso
        have hvo := not_void hA (S := b'.structs) (c := .void) .void hly
        exact hvo rfl
      | value pn h =>
        cases prim_path hs hl ho hA hi' h hpa
        exact read_obj hs hl ho hA hS hi' h hly hpa hint hho
      | object c b h hc' hb =>
        rw [← hb] at hho
        exact read_obj hs hl ho hA hS hi' h hly hpa hint hho

end

/-- C90 (partial: as `C90_calls_partial`), for a list of header files. -/
theorem C90_files_partial (w : Setup) (he : ExtraWords w.cfg) (fs : List (Str × Str)) (s : Store DefVal)
    (h : processFiles w Store.empty fs = .ok s) (types : Dict Str Str) (hl : LibOk w.cfg types s) (hT : PtrTable types) (ho : OneTag s)
    (abi : Abi) (z : CtSizes) (hA : AbiMatch abi types z) (sgn : Str → Option Bool) (hS : SignMatch types sgn) (exports : Str → Bool) :
    ∃ N, ∀ n, N ≤ n → ∀ us : List (Use NObj), (∀ u ∈ us, FairUse w.cfg types s u) →
      ∀ (f : Str) (ps : List Param) (cs : List (Option Str × CTy)) (args : List (PyArg NObj)) (kws : List (Str × PyArg NObj)),
      FairUse w.cfg types s (.invoke f args kws : Use NObj) → FairFn w.cfg types s f ps cs →
      ∀ (conv : Cls → NObj → Except PyErr CArg) (bodies : Str → CBody) (ext : NObj → PyV NObj Bytes) (m : Mem Bytes), ∃ res st' m',
      runNum (hdrEnv w.cfg types s) n (hdrLib w.cfg types s n exports false) z conv bodies
        (useAll (hdrEnv w.cfg types s) n (hdrLib w.cfg types s n exports false) (hdrStart s) us).2 m f args kws = (res, st', m') ∧
      st' = (useAll (hdrEnv w.cfg types s) n (hdrLib w.cfg types s n exports false) (hdrStart s) (us ++ [.invoke f args kws])).2 ∧
      ((exports f = false ∧ res = .error .keyError ∧ m' = m) ∨
       (exports f = true ∧ (∃ (i : Nat) (name : Option Str) (v : CTy), cs[i]? = some (name, v) ∧ Unfit v (argFor cs args kws i)) ∧
         res = .error .typeError ∧ m' = m) ∨
       (exports f = true ∧ ∃ (i : Nat) (name : Option Str) (v : CTy) (x : PyErr), cs[i]? = some (name, v) ∧
         ¬ Passable types st'.b.structs abi sgn v (argFor cs args kws i) ∧ res = .error x ∧
         ∀ o, argFor cs args kws i = some (.obj o) → ∃ c, Mirrors types st'.b.structs c v ∧ conv c o = .error x) ∨
       (exports f = true ∧ ∃ res' r q u cargs m0, res = .ok res' ∧ dget (s.defs .functions) f = some (.func (.func r ps q)) ∧ CMeaning w.cfg s r u ∧
         NumbersRight types st'.b.structs w.cfg s abi sgn u cs args kws cargs m m0 m' (bodies f cargs m0).1 (bodies f cargs m0).2
           (readOps st'.b.classes ext m') res' (fun v p r => ∃ K, ∀ k, K ≤ k → pyNum z st'.b.classes k m' v p = some r))) :=
  C90_calls_partial (C69_files w he fs _ s (C69_empty _ _) h) hl hT ho hA hS exports

/-! ### Examples -/

attribute [local irreducible] clStore

/-- C90 on a header text with `int visit(struct node *first, cb_t cb, char **msg, unsigned n)`: after any fair uses and whatever the C function does,
`res = lib.visit(cb=f, n=-1)` passes 4294967295 for `n` and the address of a new zeroed `struct node` for `first`.  If the C function leaves the int `r`
at offset 12 of it, then `res['first'].grid[1][0] == r`; if it returns the int `r`, then `res() == r`. -/
theorem C90_example : processFiles exSetup Store.empty [(c%"t.h", clText)] = .ok clStore ∧
    ∃ N, ∀ n, N ≤ n → ∀ us : List (Use NObj), (∀ u ∈ us, FairUse exSetup.cfg ctypesTable clStore u) →
      ∀ (bodies : Str → CBody) (ext : NObj → PyV NObj Bytes) (m : Mem Bytes), ∃ res st' m' cargs m0 b,
      runNum (hdrEnv exSetup.cfg ctypesTable clStore) n (hdrLib exSetup.cfg ctypesTable clStore n (fun _ => true) false) lp64Sizes
        (fun _ _ => .ok (.copy (fun _ => 0))) bodies
        (useAll (hdrEnv exSetup.cfg ctypesTable clStore) n (hdrLib exSetup.cfg ctypesTable clStore n (fun _ => true) false) (hdrStart clStore) us).2
        m c%"visit" [] [(c%"cb", .obj (.other 0)), (c%"n", .obj (.int (-1)))] = (.ok res, st', m') ∧
      cargs[3]? = some (.value [255, 255, 255, 255]) ∧ cargs[0]? = some (.addr b) ∧ m.size ≤ b ∧ (∀ j, m0.cell b j = 0) ∧
      (∀ r, Holds 4 true ((bodies c%"visit" cargs m0).1 b) 12 r → ∃ x, res.get (readOps st'.b.classes ext m') (.str c%"first") = .ok x ∧
        ∃ K, ∀ k, K ≤ k → pyNum lp64Sizes st'.b.classes k m' x [0, 1, 0] = some r) ∧
      ∀ r, Holds 4 true (bodies c%"visit" cargs m0).2 0 r →
        ∃ K, ∀ k, K ≤ k → pyNum lp64Sizes st'.b.classes k m' (res.value (readOps st'.b.classes ext m')) [] = some r := by
  refine ⟨clFiles, ?_⟩
  have ho : OneTag clStore := by intro tag; rw [clUnions]; simp [dhas, dget]
  obtain ⟨N, h⟩ := C90_files_partial exSetup (by simp [ExtraWords, exSetup]) _ _ clFiles ctypesTable clLib ptrTable_ctypes ho
    lp64 lp64Sizes lp64_match lp64Signs lp64_signs (fun _ => true)
  refine ⟨N, fun n hn us hu bodies ext m => ?_⟩
  obtain ⟨res, st', m', h1, -, h2⟩ := h n hn us hu c%"visit" clParams clCs [] [(c%"cb", .obj (.other 0)), (c%"n", .obj (.int (-1)))]
    (.invoke _ clParams clCs _ _ clFairFn (by simp) (by decide)
      (by
        intro k w hk
        simp only [List.mem_cons, Prod.mk.injEq, List.not_mem_nil, or_false] at hk
        rcases hk with ⟨rfl, _⟩ | ⟨rfl, _⟩
        · exact ⟨_, List.mem_of_getElem? (i := 1) rfl, rfl⟩
        · exact ⟨_, List.mem_of_getElem? (i := 3) rfl, rfl⟩) (fun p hp => .inl (clAgain p hp))) clFairFn (fun _ _ => .ok (.copy (fun _ => 0))) bodies ext m
  have e0 : argFor clCs ([] : List (PyArg NObj)) [(c%"cb", .obj (.other 0)), (c%"n", .obj (.int (-1)))] 0 = none := rfl
  have e1 : argFor clCs ([] : List (PyArg NObj)) [(c%"cb", .obj (.other 0)), (c%"n", .obj (.int (-1)))] 1 = some (.obj (.other 0)) := rfl
  have e2 : argFor clCs ([] : List (PyArg NObj)) [(c%"cb", .obj (.other 0)), (c%"n", .obj (.int (-1)))] 2 = none := rfl
  have e3 : argFor clCs ([] : List (PyArg NObj)) [(c%"cb", .obj (.other 0)), (c%"n", .obj (.int (-1)))] 3 = some (.obj (.int (-1))) := rfl
  have hpt0 : Pointed (.base c%"struct node") := ⟨.base _ (by decide), by intro b hb; cases hb; rfl⟩
  have hpt2 : Pointed (.ptr (.base c%"char")) := ⟨.ptr _ (.base _ (by decide)), by intro b hb; cases hb⟩
  have hun : IntTy lp64 lp64Signs (.base c%"unsigned") 4 false := .simple _ _ 4 _ rfl rfl
  have hint : IntTy lp64 lp64Signs (.base c%"int") 4 true := .simple _ _ 4 _ rfl rfl
  rcases h2 with ⟨h2, _⟩ | ⟨_, ⟨i, name, v, hi, hb⟩, _⟩ | ⟨_, i, name, v, x, hi, hb, _, hcv⟩ | ⟨_, res', r, q, u, cargs, m0, rfl, hd, hu', hN⟩
  · cases h2
  · exfalso
    rcases i with _ | _ | _ | _ | i <;> simp [clCs] at hi
    all_goals (obtain ⟨rfl, rfl⟩ := hi)
    · rw [e0] at hb
      cases hb with
      | missing hv => exact hv ⟨_, .inl rfl⟩
    · rw [e1] at hb
      cases hb with
      | null w b hw hv => rcases hw with hw | hw <;> cases hw
    · rw [e2] at hb
      cases hb with
      | missing hv => exact hv ⟨_, .inr rfl⟩
    · rw [e3] at hb
      cases hb with
      | null w b hw hv => rcases hw with hw | hw <;> cases hw
  · exfalso
    rcases i with _ | _ | _ | _ | i <;> simp [clCs] at hi
    all_goals (obtain ⟨rfl, rfl⟩ := hi)
    · rw [e0] at hb; exact hb (.omitted _ rfl hpt0)
    · obtain ⟨_, _, hc⟩ := hcv _ e1; cases hc
    · rw [e2] at hb; exact hb (.omitted _ rfl hpt2)
    · obtain ⟨_, _, hc⟩ := hcv _ e3; cases hc
  · rw [clVisit] at hd
    cases hd
    cases C73_unique _ _ _ _ _ hu' ⟨_, 0, .nil _, clFund (by rfl) rfl⟩
    obtain ⟨ms, m1, m2⟩ := clMembers
    have hly : Layout exSetup.cfg clStore lp64 false (.base c%"struct node") 64 8 := .comp false c%"node" ms none _ _ _ _ m1 m2 clPlaced
    have hli : Layout exSetup.cfg clStore lp64 false (.base c%"int") 4 4 := .simple _ 4 4 rfl
    have hl3 : Layout exSetup.cfg clStore lp64 false (.arr (some (3 : Nat)) (.base c%"int")) 12 4 := .arr 3 _ _ _ hli
    have hgrid : CMeaning exSetup.cfg clStore (ctTy c%"int" [clArr 2, clArr 3]) (.arr (some (2 : Nat)) (.arr (some (3 : Nat)) (.base c%"int"))) :=
      ⟨_, 0, .arrs _ [_] _ [] _ (by simp) (.nil _), .arr _ _ _ _ (.arr _ _ _ _ (clFund (by rfl) rfl))⟩
    have hm : ∃ m rest, ms = m :: rest ∧ m.type = ctTy c%"int" [clArr 2, clArr 3] := by
      rw [show clStore.defs (compKind false) = clStore.defs .structs from rfl, clStructs] at m1
      cases m1
      exact ⟨_, _, rfl, rfl⟩
    obtain ⟨mm, rest, rfl, hmt⟩ := hm
    have hat : PartAt exSetup.cfg clStore lp64 (.base c%"struct node") [0, 1, 0] 12 (.base c%"int") :=
      .member false c%"node" _ none _ [0, 24, 32, 40] 64 8 0 0 mm _ _ 12 _ m1 m2 clPlaced rfl rfl (by simp)
        (hmt ▸ hgrid) (.elem 2 _ 1 12 4 _ 0 _ (by omega) hl3 (.elem 3 _ 0 4 4 _ 0 _ (by omega) hli (.here _)))
    obtain ⟨b, a1, a2, a3, a4, a5⟩ := hN.omitted 0 _ _ 64 8 rfl e0 hpt0 hly
    obtain ⟨bs, r, g1, g2, g3⟩ := hN.given 3 _ _ _ _ _ rfl e3 hun
    refine ⟨res', st', m', cargs, m0, b, h1, ?_, a1, a2, a4, fun r hr => ?_, fun r hr => ?_⟩
    · rw [g1]
      obtain ⟨w1, w2, w3, -⟩ := g3
      obtain ⟨q1, q2⟩ := g2
      simp only [InRange] at q2
      match bs, w1 with
      | [x0, x1, x2, x3], _ =>
        simp only [List.mem_cons, List.not_mem_nil, or_false, forall_eq_or_imp, forall_eq] at w2
        simp [bytesVal] at w3 q1 q2
        simp only [Option.some.injEq, CArg.value.injEq, List.cons.injEq, and_true]
        omega
    · obtain ⟨x, _, x2, x3⟩ := a5 (by
        intro u tag _ hm
        have := clClear _ _ hm
        revert this; decide) _ _ _ _ _ _ hat hint hr
      exact ⟨x, x2 _ rfl, x3⟩
    · exact hN.result 4 4 hli (by intro u tag h; cases u <;> cases h) _ _ _ _ _ _ (.here _) hint hr

/-- A call after loading a header text (64-bit Unix), evaluated: the number returned and the number at a path of an argument of the result, or the
error; other objects are not converted. -/
def textCall (text : Str) (f : Str) (m : Mem Bytes) (args : List (PyArg NObj)) (kws : List (Str × PyArg NObj)) (body : CBody) (arg : PyKey) (path : List Nat) :
    Except PyErr (Option Int × Option Int) :=
  match processFiles exSetup Store.empty [(c%"t.h", text)] with
  | .error x => .error x
  | .ok s =>
    let r := runNum (hdrEnv exSetup.cfg ctypesTable s) 20 (hdrLib exSetup.cfg ctypesTable s 20 (fun _ => true) false) lp64Sizes
      (fun _ _ => .error .typeError) (fun _ => body) (hdrStart s) m f args kws
    match r.1 with
    | .error x => .error x
    | .ok res =>
      let ops := readOps r.2.1.b.classes (fun _ => .none) r.2.2
      .ok (pyNum lp64Sizes r.2.1.b.classes 20 r.2.2 (res.value ops) [],
        match res.get ops arg with
        | .ok v => pyNum lp64Sizes r.2.1.b.classes 20 r.2.2 v path
        | .error _ => none)

def sameNums (a : Except PyErr (Option Int × Option Int)) (b : Option (Option Int × Option Int)) : Bool :=
  match a, b with
  | .ok x, some y => x == y
  | .error .typeError, none => true
  | _, _ => false

/-- The C function `int move(struct pt *p, short dx) { p->y += 5; return dx; }`, with numbers below 256. -/
def moveBody : CBody := fun cargs m =>
  match cargs with
  | [.addr b, .value bs] => (fun b' j => if b' = b ∧ j = 4 then m.cell b 4 + 5 else m.cell b' j,
      fun j => match bs[j]? with | some x => x | none => if bs[1]? = some 255 then 255 else 0)
  | _ => (m.cell, fun _ => 77)

def moveText : Str := c%"struct pt { short x; int y; };\nint move(struct pt *p, short dx);\nint len(char *s);\nint fill(void *p, short dx);\nint first(int a[2]);\n"

/-- The C function `int len(char *s)`: the number of bytes before the first zero. -/
def lenBody : CBody := fun cargs m =>
  match cargs with
  | [.text bs] => (m.cell, fun j => if j = 0 then (bs.takeWhile (· ≠ 0)).length else 0)
  | _ => (m.cell, fun _ => 77)

/-- The C function `int first(int a[2]) { return a[0]++; }`, with numbers below 255. -/
def firstBody : CBody := fun cargs m =>
  match cargs with
  | [.addr b] => (fun b' j => if b' = b ∧ j = 0 then m.cell b 0 + 1 else m.cell b' j, fun j => if j = 0 then m.cell b 0 else 0)
  | _ => (m.cell, fun _ => 77)

/-- C90 evaluated: `lib.len(b"abc")` returns 3, and an array is changed in place; with `p` omitted, `lib.move(dx=-3)` returns -3 and `res['p'].y == 5`; 65537 is cut off to 1. -/
theorem C90_texts :
    sameNums (textCall moveText c%"move" ⟨fun _ _ => 0, 0⟩ [] [(c%"dx", .obj (.int (-3)))] moveBody (.str c%"p") [1]) (some (some (-3), some 5)) = true ∧
    sameNums (textCall moveText c%"move" ⟨fun _ _ => 9, 3⟩ [] [(c%"dx", .obj (.int 65537))] moveBody (.int 0) [1]) (some (some 1, some 5)) = true ∧
    sameNums (textCall moveText c%"fill" ⟨fun _ _ => 0, 0⟩ [] [(c%"dx", .obj (.int 7))] moveBody (.int 5) []) (some (some 7, none)) = true ∧
    sameNums (textCall moveText c%"len" ⟨fun _ _ => 0, 0⟩ [.obj (.bytes [97, 98, 99])] [] lenBody (.int 5) []) (some (some 3, none)) = true ∧
    sameNums (textCall moveText c%"first" ⟨fun b j => if b = 1 ∧ j = 0 then 8 else 0, 2⟩ [.obj (.inst (.arr 2 (.prim c%"c_int")) 1)] [] firstBody (.int 5) [])
      (some (some 8, none)) = true := by decide +kernel

/-- A call that raises does not depend on the C function. -/
theorem run_error (e : CtEnv) (n : Nat) (l : Lib CtObj CtState) (z : CtSizes) (conv : Cls → NObj → Except PyErr CArg) (st : LState CtObj CtState)
    (m : Mem Bytes) (f : Str) (args : List (PyArg NObj)) (kws : List (Str × PyArg NObj)) (b b' : Str → CBody) (x : PyErr)
    (h : (runNum e n l z conv b st m f args kws).1 = .error x) : (runNum e n l z conv b' st m f args kws).1 = .error x := by
  unfold runNum at h ⊢
  cases hg : l.getattr st f with
  | mk r st1 =>
    simp only [hg] at h ⊢
    split at h
    · exact h
    · rename_i y g st2 hy
      cases hy
      split at h
      · exact h
      · split at h
        · exact h
        · cases h
    · exact h

/-- Counterexample to C90 for `char *`: with `int len(char *s);` the call `lib.len()` always raises, since the object made for `s` is not one that the
parameter accepts. -/
theorem C90_char_counterexample (body : CBody) : ∃ s, processFiles exSetup Store.empty [(c%"t.h", moveText)] = .ok s ∧
    ∃ x, (runNum (hdrEnv exSetup.cfg ctypesTable s) 20 (hdrLib exSetup.cfg ctypesTable s 20 (fun _ => true) false) lp64Sizes
      (fun _ _ => .error .typeError) (fun _ => body) (hdrStart s) ⟨fun _ _ => 0, 0⟩ c%"len" [] []).1 = .error x := by
  have h : sameNums (textCall moveText c%"len" ⟨fun _ _ => 0, 0⟩ [] [] moveBody (.int 0) []) none = true := by decide +kernel
  unfold textCall at h
  cases hp : processFiles exSetup Store.empty [(c%"t.h", moveText)] with
  | error x =>
    have : (match processFiles exSetup Store.empty [(c%"t.h", moveText)] with | .ok _ => true | .error _ => false) = true := by decide +kernel
    rw [hp] at this; cases this
  | ok s =>
    refine ⟨s, rfl, ?_⟩
    rw [hp] at h
    simp only at h
    split at h
    · rename_i x hx; exact ⟨x, run_error _ _ _ _ _ _ _ _ _ _ _ _ _ hx⟩
    · cases h

end Pyclib
