import Verif.Spec.Result
import Verif.Props.Session
/-!
C75: what a C function writes through a generated pointer, and what it returns, is what the caller reads.

Full statement: for every set of C headers, every use of the library so far, every C function and every call that reaches it:
each omitted parameter `w *` is a pointer to a new object of type `w`, and `result[i]`, `result['name']`, unpacking and `auto()`
give what the C function left in that object; `result()` is what the C function returned.  Proved for headers with `LibOk` and fair
calls, for types that are `Clear`, and pointers other than `char *`, `wchar_t *`, `void *`; for a struct with a
member `value` it is false (`C75_counterexample_value`).
-/
namespace Pyclib
open Spec

section
variable {A R : Type}

/-! ### Passing arguments -/

theorem passAll_ok (z : R) : ∀ (as : List (Passed A)) (m : Mem R),
    (passAll z m as).1.length = as.length ∧ m.size ≤ (passAll z m as).2.size ∧
    (∀ b, b < m.size → (passAll z m as).2.cell b = m.cell b) ∧
    (∀ (i : Nat) x b, (passAll z m as).1[i]? = some x → block x = some b →
      m.size ≤ b ∧ b < (passAll z m as).2.size ∧ (passAll z m as).2.cell b = z) ∧
    (∀ (i j : Nat) x y b, (passAll z m as).1[i]? = some x → (passAll z m as).1[j]? = some y → block x = some b → block y = some b → i = j) ∧
    (∀ (i : Nat) a, as[i]? = some (.obj a) → (passAll z m as).1[i]? = some (.given a)) ∧
    ∀ (i : Nat) c, as[i]? = some (.auto c) → ∃ b, (passAll z m as).1[i]? = some (.ref c.target b) := by
  intro as
  induction as with
  | nil => intro m; simp [passAll]
  | cons a as ih =>
    intro m
    have fresh : ∀ (v : PyV A R), block v = some m.size → passAll z m (a :: as) = (v :: (passAll z (m.alloc z) as).1, (passAll z (m.alloc z) as).2) →
        (∀ o, a ≠ .obj o) → (∀ c, a = .auto c → v = .ref c.target m.size) →
        (passAll z m (a :: as)).1.length = (a :: as).length ∧ m.size ≤ (passAll z m (a :: as)).2.size ∧
        (∀ b, b < m.size → (passAll z m (a :: as)).2.cell b = m.cell b) ∧
        (∀ (i : Nat) x b, (passAll z m (a :: as)).1[i]? = some x → block x = some b →
          m.size ≤ b ∧ b < (passAll z m (a :: as)).2.size ∧ (passAll z m (a :: as)).2.cell b = z) ∧
        (∀ (i j : Nat) x y b, (passAll z m (a :: as)).1[i]? = some x → (passAll z m (a :: as)).1[j]? = some y → block x = some b → block y = some b → i = j) ∧
        (∀ (i : Nat) o, (a :: as)[i]? = some (.obj o) → (passAll z m (a :: as)).1[i]? = some (.given o)) ∧
        ∀ (i : Nat) c, (a :: as)[i]? = some (.auto c) → ∃ b, (passAll z m (a :: as)).1[i]? = some (.ref c.target b) := by
      intro v hv he hno hau
      obtain ⟨h1, h2, h3, h4, h5, h6, h7⟩ := ih (m.alloc z)
      rw [he]
      have hs : (m.alloc z).size = m.size + 1 := rfl
      refine ⟨by simp [h1], by simp only; omega, fun b hb => ?_, fun i x b hi hb => ?_, fun i j x y b hi hj hx hy => ?_, fun i o hi => ?_, fun i c hi => ?_⟩
      · simp only
        rw [h3 b (by omega)]
        simp [Mem.alloc, Nat.ne_of_lt hb]
      · cases i with
        | zero =>
          simp at hi; subst hi
          rw [hv] at hb; cases hb
          refine ⟨Nat.le_refl _, by simp only; omega, ?_⟩
          simp only
          rw [h3 _ (by omega)]
          simp [Mem.alloc]
        | succ i =>
          obtain ⟨g1, g2, g3⟩ := h4 i x b (by simpa using hi) hb
          exact ⟨by omega, g2, g3⟩
      · cases i with
        | zero =>
          simp at hi; subst hi
          rw [hv] at hx; cases hx
          cases j with
          | zero => rfl
          | succ j =>
            have := (h4 j y _ (by simpa using hj) hy).1
            omega
        | succ i =>
          cases j with
          | zero =>
            simp at hj; subst hj
            rw [hv] at hy; cases hy
            have := (h4 i x _ (by simpa using hi) hx).1
            omega
          | succ j => rw [h5 i j x y b (by simpa using hi) (by simpa using hj) hx hy]
      · cases i with
        | zero => simp at hi; exact (hno o hi).elim
        | succ i => simpa using h6 i o (by simpa using hi)
      · cases i with
        | zero => simp at hi; exact ⟨m.size, by simp [hau c hi]⟩
        | succ i => simpa using h7 i c (by simpa using hi)
    cases a with
    | nul c => exact fresh (.inst c m.size) rfl rfl (by simp) (by simp)
    | auto c => exact fresh (.ref c.target m.size) rfl rfl (by simp) (by simp)
    | obj a =>
      obtain ⟨h1, h2, h3, h4, h5, h6, h7⟩ := ih m
      have he : passAll z m (.obj a :: as) = (.given a :: (passAll z m as).1, (passAll z m as).2) := rfl
      rw [he]
      refine ⟨by simp [h1], h2, h3, fun i x b hi hb => ?_, fun i j x y b hi hj hx hy => ?_, fun i o hi => ?_, fun i c hi => ?_⟩
      · cases i with
        | zero => simp at hi; subst hi; cases hb
        | succ i => exact h4 i x b (by simpa using hi) hb
      · cases i with
        | zero => simp at hi; subst hi; cases hx
        | succ i =>
          cases j with
          | zero => simp at hj; subst hj; cases hy
          | succ j => rw [h5 i j x y b (by simpa using hi) (by simpa using hj) hx hy]
      · cases i with
        | zero => simp at hi; simp [hi]
        | succ i => simpa using h6 i o (by simpa using hi)
      · cases i with
        | zero => simp at hi
        | succ i => simpa using h7 i c (by simpa using hi)

end

section
variable {cfg : Cfg} {junk : Str → Str} {types : Dict Str Str} {s : Store DefVal} {exports : Str → Bool}

/-! ### The attribute `value` -/

theorem mirrors_tag {S : Dict Str Nat} {id : Nat} {v : CTy} (h : Mirrors types S (.comp id) v) :
    ∃ u tag, v = .base (compWord u ++ ' ' :: tag) ∧ dget S tag = some id := by
  cases h with
  | struct tag _ h => exact ⟨false, tag, rfl, h⟩
  | union tag _ h => exact ⟨true, tag, rfl, h⟩

theorem compWord_inj {u u' : Bool} {tag tag' : Str} (h : compWord u ++ ' ' :: tag = compWord u' ++ ' ' :: tag') : tag = tag' := by
  cases u <;> cases u' <;> simp [compWord] at h <;> exact h

theorem hasField_member (hs : TablesWf cfg junk s) (hl : LibOk cfg types s) {st : LState CtObj CtState} (hi : LibInv cfg types s exports st)
    {n : Str} (hn : ∀ k, n ≠ c%"anon_member" ++ natDigits k) : ∀ (k id : Nat) (tag : Str), dget st.b.structs tag = some id →
    hasField st.b.classes n k id = true → HasMember cfg s n tag := by
  intro k
  induction k with
  | zero => intro id tag _ h; cases h
  | succ k ih =>
    intro id tag hid h
    unfold hasField at h
    cases hc : st.b.classes[id]? with
    | none => rw [hc] at h; cases h
    | some c =>
      rw [hc] at h
      simp only at h
      cases hf : c.fields with
      | none => rw [hf] at h; cases h
      | some fs =>
        rw [hf] at h
        simp only at h
        obtain ⟨ks, hr, _⟩ := hi.reach
        obtain ⟨_, ms, h1, h2, h3, h4⟩ := C70_fields_partial hs hl ks st.b hr tag id c fs hid hc hf
        obtain ⟨f, hfm, hx⟩ := List.any_eq_true.1 h
        obtain ⟨j, hj⟩ := List.mem_iff_getElem?.1 hfm
        have hlt : j < ms.length := by rw [← h2]; exact (List.getElem?_eq_some_iff.1 hj).1
        obtain ⟨f', g1, g2, g3, _, g4⟩ := h4 j ms[j] (List.getElem?_eq_getElem hlt)
        rw [hj] at g1; cases g1
        obtain ⟨_, _, v, hv, _, _, hva, hno⟩ := hl.members c.union tag ms c.pack ms[j] h1 (List.getElem_mem hlt)
        rw [Bool.or_eq_true, Bool.and_eq_true] at hx
        rcases hx with hx | ⟨hx, hy⟩
        · have hx := of_decide_eq_true hx
          cases hm : ms[j].name with
          | none =>
            obtain ⟨k', hk⟩ := g3 hm
            rw [hx] at hk
            exact (hn k' hk).elim
          | some x =>
            have := g2 x hm
            rw [hx] at this
            subst this
            exact .here c.union tag ms c.pack ms[j] h1 (List.getElem_mem hlt) hm
        · have hx := of_decide_eq_true hx
          cases hm : ms[j].name with
          | some x =>
            exfalso
            obtain ⟨j', m', f', e1, e2, e3, e4⟩ := (h3 _).1 hx
            obtain ⟨f'', q1, _, q3, _, _⟩ := h4 j' m' e1
            rw [e3] at q1; cases q1
            obtain ⟨k', hk⟩ := q3 e2
            exact hno x k' hm (by rw [← g2 x hm, ← e4, hk])
          | none =>
            obtain ⟨u', tag', rfl⟩ := hva hm
            have hmi := g4 _ hv
            cases hf2 : f.2.1 with
            | comp id' =>
              rw [hf2] at hy hmi
              simp only at hy
              obtain ⟨u2, tag2, e, hid'⟩ := mirrors_tag hmi
              have := compWord_inj (CTy.base.inj e)
              subst this
              exact .inside c.union u' tag tag' ms c.pack ms[j] h1 (List.getElem_mem hlt) hm hv (ih id' tag' hid' hy)
            | _ => rw [hf2] at hy; cases hy

/-! ### Reading -/

variable {A R : Type}

/-- `_extract_val_` leaves objects of clear types as they are. -/
theorem extract_clear (hs : TablesWf cfg junk s) (hl : LibOk cfg types s) {st : LState CtObj CtState} (hi : LibInv cfg types s exports st)
    {c : Cls} {v : CTy} (hm : Mirrors types st.b.structs c v) (hc : Clear cfg types s v) (hp : ∀ p, c ≠ .prim p)
    (ext : A → PyV A R) (m : Mem R) (b : Nat) : (readOps st.b.classes ext m).extract (.inst c b) = .inst c b := by
  cases c with
  | prim p => exact (hp p rfl).elim
  | comp id =>
    obtain ⟨u, tag, rfl, hid⟩ := mirrors_tag hm
    have : hasField st.b.classes c%"value" (st.b.classes.length + 1) id = false := by
      cases h : hasField st.b.classes c%"value" (st.b.classes.length + 1) id with
      | false => rfl
      | true => exact (hc u tag rfl (hasField_member hs hl hi (by intro k h; cases h) _ id tag hid h)).elim
    simp only [readOps, this]
    rfl
  | arr k c =>
    have : isCharCls c = false := by
      cases hm with
      | arr _ _ v _ h =>
        cases h with
        | prim s' p h' =>
          obtain ⟨h1, h2⟩ := hc
          simp only [isCharCls, Bool.or_eq_false_iff, beq_eq_false_iff_ne]
          exact ⟨by rintro rfl; exact h1 h', by rintro rfl; exact h2 h'⟩
        | special s' p h' =>
          unfold specialPtr at h'
          simp only at h'
          split at h'
          · cases h'; rfl
          · split at h'
            · cases h'; rfl
            · split at h'
              · cases h'; rfl
              · cases h'
        | _ => rfl
    simp only [readOps, this]
    rfl
  | _ => rfl

theorem auto_target {S : Dict Str Nat} {c : Cls} {w : CTy} (h : AutoOk types S c (.ptr w)) (ho : OutPtr (.ptr w))
    (hw : ∀ b, w = .base b → specialPtr b = none) : c = .ptr c.target ∧ Mirrors types S c.target w := by
  rcases h with ⟨b, p, e, h, _⟩ | ⟨_, h⟩
  · cases e; rw [hw b rfl] at h; cases h
  · cases h with
    | special b p h => rw [hw b rfl] at h; cases h
    | ptr c v h _ => exact ⟨rfl, h⟩
    | fnptr =>
      obtain ⟨b, e | e⟩ := ho <;> cases e

theorem fit_not {S : Dict Str Nat} {v : CTy} {gv : Option (PyArg A)} {a : Passed A} (h : ArgRight types S v gv a) : ¬ Unfit v gv := by
  intro hu
  cases hu with
  | null w b hw hv =>
    cases h with
    | obj => rcases hw with hw | hw <;> cases hw
    | nul _ _ _ hv' => exact hv' b hv
  | missing hv =>
    cases h with
    | auto _ hv' => exact hv hv'

/-- A call, from a state of the library: the function is found or not; the arguments are fit or not; and then, whatever C function is called with
them, the caller sees what they should see. -/
theorem call_sees (hs : TablesWf cfg junk s) (hl : LibOk cfg types s) (hT : PtrTable types) {N n : Nat} (hb : Bound cfg types s false N)
    (hp : ParBound cfg types s N) (hn : N ≤ n) {st : LState CtObj CtState} (hinv : UseInv cfg types s exports st)
    {f : Str} {ps : List Param} {cs : List (Option Str × CTy)} {args : List (PyArg A)} {kws : List (Str × PyArg A)}
    (hfu : FairUse cfg types s (.invoke f args kws : Use A)) (hf : FairFn cfg types s f ps cs) :
    ∃ res1 st1, (hdrLib cfg types s n exports false).getattr st f = (res1, st1) ∧
      ((exports f = false ∧ res1 = .error .keyError) ∨
       (exports f = true ∧ ∃ g out b', res1 = .ok (.obj (.func f g)) ∧ callFunc (hdrEnv cfg types s) n g (.error .nameError) st1.b args kws = (out, b') ∧
         LibInv cfg types s exports { st1 with b := b' } ∧ MirrorsArgs types b'.structs g.argTypes cs ∧
         ((∃ (i : Nat) (name : Option Str) (v : CTy), cs[i]? = some (name, v) ∧ Unfit v (argFor cs args kws i)) ∧ out = .raised .typeError ∨
          (∀ (i : Nat) name v, cs[i]? = some (name, v) → ¬ Unfit v (argFor cs args kws i)) ∧
          ∃ as gs r q u, out = .called as gs ∧ dget (s.defs .functions) f = some (.func (.func r ps q)) ∧ CMeaning cfg s r u ∧
            as.length = cs.length ∧ (∀ (i : Nat) name v, cs[i]? = some (name, v) → ∃ a, as[i]? = some a ∧ ArgRight types b'.structs v (argFor cs args kws i) a) ∧
            ∀ (z : R) (proc : CProc A R) (ext : A → PyV A R) (m : Mem R), (runProc z proc g as gs m).1.args = (passAll z m as).1 ∧
              Outcome types b'.structs cfg s u cs args kws z proc (readOps b'.classes ext (runProc z proc g as gs m).2) ext
                (runProc z proc g as gs m).1 m (passAll z m as).2 (runProc z proc g as gs m).2))) := by
  obtain ⟨res1, st1, e1, e2, e3, e4, e5⟩ := getattr_func (exports := exports) hs hl hb hn hinv.1 hinv.2 hf
  refine ⟨res1, st1, e1, ?_⟩
  rcases e5 with ⟨hx, rfl⟩ | ⟨hx, g, rfl, hg, ⟨r, ps', q, u, hd, hru, hmr⟩, hma⟩
  · exact .inl ⟨hx, rfl⟩
  · obtain ⟨⟨r0, q0, hd0⟩, hps⟩ := hf.decl
    have hd1 := hd0
    rw [hd] at hd1; cases hd1
    obtain ⟨hlk, hnm, _⟩ := func_fit hs hp hf hg
    cases hfu with
    | invoke _ ps1 cs1 _ _ hf1 few keys known again =>
    obtain ⟨⟨r2, q2, hd2⟩, hps2⟩ := hf1.decl
    rw [hd] at hd2; cases hd2
    cases params_unique hps2 hps
    obtain ⟨i1, i2, i3⟩ := invoke_right hs hl hT hp hn e2 hf hg few keys known again
    cases hcall : callFunc (hdrEnv cfg types s) n g (.error .nameError) st1.b args kws with
    | mk out b' =>
      rw [hcall] at i1 i2 i3
      simp only at i1 i2 i3
      refine .inr ⟨hx, g, out, b', rfl, hcall, i1, mirrorsArgs_mono i2 hma, ?_⟩
      cases i3 with
      | unfit i name v h1 h2 => exact .inl ⟨⟨i, name, v, h1, h2⟩, rfl⟩
      | called as gs hlen hargs hord hgs =>
        refine .inr ⟨fun i name v hi hu => ?_, as, gs, r, q, u, rfl, hd, hru, hlen, hargs, fun z proc ext m => ⟨rfl, ?_⟩⟩
        · obtain ⟨a, _, h2⟩ := hargs i name v hi
          exact fit_not h2 hu
        obtain ⟨p1, p2, p3, p4, p5, p6, p7⟩ := passAll_ok z as m
        have hmr' := mirrors_mono i2 hmr
        simp only [runProc]
        generalize passAll z m as = vm at p1 p2 p3 p4 p5 p6 p7
        obtain ⟨vs, m0⟩ := vm
        simp only at p1 p2 p3 p4 p5 p6 p7
        simp only
        generalize hpo : proc vs m0 = out
        obtain ⟨cell, rv⟩ := out
        simp only
        have hret : ∀ b, b < m0.size → (retV (A := A) ⟨cell, m0.size⟩ g.resType rv).2.cell b = cell b := by
          intro b hb'
          unfold retV
          split <;> simp [Mem.alloc] <;> omega
        generalize hm' : (retV (A := A) ⟨cell, m0.size⟩ g.resType rv).2 = m' at hret
        have hdn : DistinctNames g.params := by
          intro i j k h1 h2
          obtain ⟨v, hv⟩ := (nameAt_cs hnm).1 h1
          obtain ⟨w, hw⟩ := (nameAt_cs hnm).1 h2
          exact hf.names i j k v w hv hw
        refine ⟨by rw [p1, hlen], ⟨p2, p3⟩, fun b hb' => by rw [hret b hb']; simp only [hpo], p5, ?_, ?_, ?_, ?_, ⟨gs, hord, hgs, rfl⟩⟩
        · intro hcl
          simp only [CRes.value, hpo]
          subst hm'
          by_cases hpr : ∃ p, g.resType = .prim p
          · obtain ⟨p, hpr⟩ := hpr
            rw [hpr] at hmr' ⊢
            exact .value p hmr'
          · have hpr' : ∀ p, g.resType ≠ .prim p := fun p h => hpr ⟨p, h⟩
            by_cases hvo : g.resType = .void
            · rw [hvo] at hmr' ⊢
              cases hmr' with
              | void => exact .void rfl
            · have hex := extract_clear (A := A) hs hl i1 hmr' hcl hpr' ext (retV (A := A) ⟨cell, m0.size⟩ g.resType rv).2 m0.size
              have hre : retV (A := A) ⟨cell, m0.size⟩ g.resType rv = (.inst g.resType m0.size, Mem.alloc ⟨cell, m0.size⟩ rv) := by
                generalize g.resType = c at hpr' hvo
                cases c with
                | void => exact (hvo rfl).elim
                | prim p => exact (hpr' p rfl).elim
                | _ => rfl
              rw [hre] at hex ⊢
              simp only at hex ⊢
              rw [hex]
              exact .object _ _ hmr' hpr' (by simp [Mem.alloc])
        · intro i x a hc ha
          obtain ⟨a', h1, h2⟩ := hargs i x.1 x.2 hc
          rw [ha] at h2
          have : a' = .obj a := by
            cases h2 with
            | obj => rfl
            | nul w c hw => rcases hw with hw | hw <;> cases hw
          subst this
          have h3 := p6 i a h1
          refine ⟨h3, ?_⟩
          rw [C44_get _ _ i _ h3, if_neg (by rw [hgs, ha]; simp)]
          rfl
        · intro i name w hc ho hw
          obtain ⟨a', h1, h2⟩ := hargs i name _ hc
          rw [ho] at h2
          cases h2 with
          | auto c hv hau =>
            obtain ⟨e, hm⟩ := auto_target hau hv hw
            obtain ⟨b, hb'⟩ := p7 i c h1
            obtain ⟨b1, b2, b3⟩ := p4 i _ b hb' rfl
            refine ⟨c.target, b, hb', hm, b1, b2, b3, fun hcl => ?_⟩
            have hget := C44_get (readOps b'.classes ext m') ⟨(retV ⟨cell, m0.size⟩ g.resType rv).1, vs, g.params, gs⟩ i _ hb'
            rw [if_pos ((hgs i).2 ⟨(List.getElem?_eq_some_iff.1 hc).1, ho⟩)] at hget
            have hname : ∀ x, CRes.get (readOps b'.classes ext m') ⟨(retV ⟨cell, m0.size⟩ g.resType rv).1, vs, g.params, gs⟩ (.int i) = .ok x →
                ∀ k, name = some k → CRes.get (readOps b'.classes ext m') ⟨(retV ⟨cell, m0.size⟩ g.resType rv).1, vs, g.params, gs⟩ (.str k) = .ok x := by
              rintro x hx' k rfl
              rw [(C44_same _ _ hdn i k ((nameAt_cs hnm).2 ⟨_, hc⟩)).1, hx']
            by_cases hpr : ∃ p, c.target = .prim p
            · obtain ⟨p, hpr⟩ := hpr
              rw [hpr] at hget ⊢
              exact ⟨hget, hname _ hget⟩
            · have hpr' : ∀ p, c.target ≠ .prim p := fun p h => hpr ⟨p, h⟩
              have hde : (readOps b'.classes ext m').deref (.ref c.target b) = .ok (.inst c.target b) := by
                generalize c.target = c' at hpr'
                cases c' with
                | prim p => exact (hpr' p rfl).elim
                | _ => rfl
              have hex := extract_clear (A := A) hs hl i1 hm hcl hpr' ext m' b
              rw [hde] at hget
              have hget' : CRes.get (readOps b'.classes ext m') ⟨(retV ⟨cell, m0.size⟩ g.resType rv).1, vs, g.params, gs⟩ (.int i) = .ok (.inst c.target b) := by
                rw [hget]; exact congrArg Except.ok hex
              have hsh : shown m'.cell c.target b = (.inst c.target b : PyV A R) := by
                generalize c.target = c' at hpr'
                cases c' with
                | prim p => exact (hpr' p rfl).elim
                | _ => rfl
              rw [hsh]
              exact ⟨hget', hname _ hget'⟩
        · have := C44_iter (readOps b'.classes ext m') ⟨(retV ⟨cell, m0.size⟩ g.resType rv).1, vs, g.params, gs⟩
          simp only [p1, hlen] at this
          exact ⟨this.1, this.2.1, this.2.2⟩

/-- C75 (partial: `LibOk`, fair calls, clear types): in the library of a header, after any use made of it before, a call raises
`KeyError` if the shared library lacks the function, or raises `TypeError` if an argument is unfit, in both cases with
memory untouched, or reaches the C function; and then, whatever that does to memory and returns, the caller sees what they
should see. -/
theorem C75_outputs_partial (hs : TablesWf cfg junk s) (hl : LibOk cfg types s) (hT : PtrTable types) (exports : Str → Bool) :
    ∃ N, ∀ n, N ≤ n → ∀ us : List (Use A), (∀ u ∈ us, FairUse cfg types s u) →
      ∀ (f : Str) (ps : List Param) (cs : List (Option Str × CTy)) (args : List (PyArg A)) (kws : List (Str × PyArg A)),
      FairUse cfg types s (.invoke f args kws : Use A) → FairFn cfg types s f ps cs →
      ∀ (z : R) (procs : Str → CProc A R) (ext : A → PyV A R) (m : Mem R), ∃ res st' m',
      runLib (hdrEnv cfg types s) n (hdrLib cfg types s n exports false) z procs
        (useAll (hdrEnv cfg types s) n (hdrLib cfg types s n exports false) (hdrStart s) us).2 m f args kws = (res, st', m') ∧
      ((exports f = false ∧ res = .error .keyError ∧ m' = m) ∨
       (exports f = true ∧ (∃ (i : Nat) (name : Option Str) (v : CTy), cs[i]? = some (name, v) ∧ Unfit v (argFor cs args kws i)) ∧
         res = .error .typeError ∧ m' = m) ∨
       (exports f = true ∧ (∀ (i : Nat) name v, cs[i]? = some (name, v) → ¬ Unfit v (argFor cs args kws i)) ∧
         ∃ res' r q u m0, res = .ok res' ∧ dget (s.defs .functions) f = some (.func (.func r ps q)) ∧ CMeaning cfg s r u ∧
           Outcome types st'.b.structs cfg s u cs args kws z (procs f) (readOps st'.b.classes ext m') ext res' m m0 m')) := by
  obtain ⟨N, hb, hp⟩ := use_bound hs hl
  refine ⟨N, fun n hn us hu f ps cs args kws hfu hf z procs ext m => ?_⟩
  have hinv := (uses_right (A := A) (exports := exports) hs hl hT hb hp hn us
    ⟨start_inv, ⟨by simp [hdrStart, LState.init], by simp [hdrStart, LState.init]⟩⟩ hu).1
  obtain ⟨res1, st1, e1, h⟩ := call_sees (R := R) hs hl hT hb hp hn hinv hfu hf
  simp only [runLib, e1]
  rcases h with ⟨hx, rfl⟩ | ⟨hx, g, out, b', rfl, hc, _, _, ⟨h1, rfl⟩ | ⟨h1, as, gs, r, q, u, rfl, h2, h3, _, _, h4⟩⟩
  · exact ⟨_, _, _, rfl, .inl ⟨hx, rfl, rfl⟩⟩
  · simp only [hc]
    exact ⟨_, _, _, rfl, .inr (.inl ⟨hx, h1, rfl, rfl⟩)⟩
  · simp only [hc]
    exact ⟨_, _, _, rfl, .inr (.inr ⟨hx, h1, _, r, q, u, _, rfl, h2, h3, (h4 z (procs f) ext m).2⟩)⟩

end

/-- C75 (partial: as `C75_outputs_partial`), for a list of header files. -/
theorem C75_files_partial {A R : Type} (w : Setup) (he : ExtraWords w.cfg) (fs : List (Str × Str)) (s : Store DefVal)
    (h : processFiles w Store.empty fs = .ok s) (types : Dict Str Str) (hl : LibOk w.cfg types s) (hT : PtrTable types) (exports : Str → Bool) :
    ∃ N, ∀ n, N ≤ n → ∀ us : List (Use A), (∀ u ∈ us, FairUse w.cfg types s u) →
      ∀ (f : Str) (ps : List Param) (cs : List (Option Str × CTy)) (args : List (PyArg A)) (kws : List (Str × PyArg A)),
      FairUse w.cfg types s (.invoke f args kws : Use A) → FairFn w.cfg types s f ps cs →
      ∀ (z : R) (procs : Str → CProc A R) (ext : A → PyV A R) (m : Mem R), ∃ res st' m',
      runLib (hdrEnv w.cfg types s) n (hdrLib w.cfg types s n exports false) z procs
        (useAll (hdrEnv w.cfg types s) n (hdrLib w.cfg types s n exports false) (hdrStart s) us).2 m f args kws = (res, st', m') ∧
      ((exports f = false ∧ res = .error .keyError ∧ m' = m) ∨
       (exports f = true ∧ (∃ (i : Nat) (name : Option Str) (v : CTy), cs[i]? = some (name, v) ∧ Unfit v (argFor cs args kws i)) ∧
         res = .error .typeError ∧ m' = m) ∨
       (exports f = true ∧ (∀ (i : Nat) name v, cs[i]? = some (name, v) → ¬ Unfit v (argFor cs args kws i)) ∧
         ∃ res' r q u m0, res = .ok res' ∧ dget (s.defs .functions) f = some (.func (.func r ps q)) ∧ CMeaning w.cfg s r u ∧
           Outcome types st'.b.structs w.cfg s u cs args kws z (procs f) (readOps st'.b.classes ext m') ext res' m m0 m')) :=
  C75_outputs_partial (C69_files w he fs _ s (C69_empty _ _) h) hl hT exports

/-! ### Example -/

attribute [local irreducible] clStore

theorem clClear (n : Str) (tag : Str) (h : HasMember exSetup.cfg clStore n tag) : n ∈ [c%"grid", c%"next", c%"cb", c%"v"] := by
  have key : ∀ u tag ms pack (m : Member), dget (clStore.defs (compKind u)) tag = some (.compound ms pack) → m ∈ ms →
      ∃ x ∈ [c%"grid", c%"next", c%"cb", c%"v"], m.name = some x := by
    intro u tag ms pack m h hm
    cases u with
    | true => rw [show clStore.defs (compKind true) = clStore.defs .unions from rfl, clUnions] at h; cases h
    | false =>
      rw [show clStore.defs (compKind false) = clStore.defs .structs from rfl, clStructs] at h
      have := dget_some_mem h
      simp only [List.mem_singleton, Prod.mk.injEq, DefVal.compound.injEq] at this
      obtain ⟨_, rfl, _⟩ := this
      simp only [List.mem_cons, List.not_mem_nil, or_false] at hm
      rcases hm with rfl | rfl | rfl | rfl <;> simp
  cases h with
  | here u _ ms pack m h hm hn =>
    obtain ⟨x, hx, he⟩ := key u tag ms pack m h hm
    rw [hn] at he; cases he
    exact hx
  | inside u u' _ tag' ms pack m h hm hn =>
    obtain ⟨x, hx, he⟩ := key u tag ms pack m h hm
    rw [hn] at he; cases he

/-- C75 on a header text with `int visit(struct node *first, cb_t cb, char **msg, unsigned n)`: whatever (fair) use was made of
the library before and whatever the C function does, `res = lib.visit(cb=None, n=7)` returns; `res['first']` is the `node`
object given to the C function, `res['msg']` what it wrote to the other, `res()` the int it returned. -/
theorem C75_example {R : Type} : processFiles exSetup Store.empty [(c%"t.h", clText)] = .ok clStore ∧
    ∃ N, ∀ n, N ≤ n → ∀ us : List (Use Nat), (∀ u ∈ us, FairUse exSetup.cfg ctypesTable clStore u) →
      ∀ (z : R) (procs : Str → CProc Nat R) (ext : Nat → PyV Nat R) (m : Mem R), ∃ res st' m' m0 id b1 b2,
      runLib (hdrEnv exSetup.cfg ctypesTable clStore) n (hdrLib exSetup.cfg ctypesTable clStore n (fun _ => true) false) z procs
        (useAll (hdrEnv exSetup.cfg ctypesTable clStore) n (hdrLib exSetup.cfg ctypesTable clStore n (fun _ => true) false) (hdrStart clStore) us).2
        m c%"visit" [] [(c%"cb", .none), (c%"n", .obj 7)] = (.ok res, st', m') ∧
      dget st'.b.structs c%"node" = some id ∧ b1 ≠ b2 ∧ res.args[0]? = some (.ref (.comp id) b1) ∧
      res.args[2]? = some (.ref (.prim c%"c_char_p") b2) ∧ res.args[3]? = some (.given 7) ∧
      res.get (readOps st'.b.classes ext m') (.str c%"first") = .ok (.inst (.comp id) b1) ∧
      res.get (readOps st'.b.classes ext m') (.str c%"msg") = .ok (.val c%"c_char_p" ((procs c%"visit" res.args m0).1 b2)) ∧
      res.value (readOps st'.b.classes ext m') = .val c%"c_int" (procs c%"visit" res.args m0).2 := by
  refine ⟨clFiles, ?_⟩
  obtain ⟨N, h⟩ := C75_files_partial (A := Nat) (R := R) exSetup (by simp [ExtraWords, exSetup]) _ _ clFiles ctypesTable clLib ptrTable_ctypes (fun _ => true)
  refine ⟨N, fun n hn us hu z procs ext m => ?_⟩
  obtain ⟨res, st', m', h1, h2⟩ := h n hn us hu c%"visit" clParams clCs [] [(c%"cb", .none), (c%"n", .obj 7)]
    (.invoke _ clParams clCs _ _ clFairFn (by simp) (by decide)
      (by
        intro k w hk
        simp only [List.mem_cons, Prod.mk.injEq, List.not_mem_nil, or_false] at hk
        rcases hk with ⟨rfl, _⟩ | ⟨rfl, _⟩
        · exact ⟨_, List.mem_of_getElem? (i := 1) rfl, rfl⟩
        · exact ⟨_, List.mem_of_getElem? (i := 3) rfl, rfl⟩) (fun p hp => .inl (clAgain p hp))) clFairFn z procs ext m
  have e0 : argFor clCs ([] : List (PyArg Nat)) [(c%"cb", .none), (c%"n", .obj 7)] 0 = none := rfl
  have e1 : argFor clCs ([] : List (PyArg Nat)) [(c%"cb", .none), (c%"n", .obj 7)] 1 = some .none := rfl
  have e2 : argFor clCs ([] : List (PyArg Nat)) [(c%"cb", .none), (c%"n", .obj 7)] 2 = none := rfl
  have e3 : argFor clCs ([] : List (PyArg Nat)) [(c%"cb", .none), (c%"n", .obj 7)] 3 = some (.obj 7) := rfl
  rcases h2 with ⟨h2, _⟩ | ⟨_, ⟨i, name, v, hi, hb⟩, _⟩ | ⟨_, _, res', r, q, u, m0, rfl, hd, hu', ho⟩
  · cases h2
  · exfalso
    rcases i with _ | _ | _ | _ | i <;> simp [clCs] at hi
    all_goals (obtain ⟨rfl, rfl⟩ := hi)
    · rw [e0] at hb
      cases hb with
      | missing hv => exact hv ⟨_, .inl rfl⟩
    · rw [e1] at hb
      cases hb with
      | null w b hw hv => cases hv
    · rw [e2] at hb
      cases hb with
      | missing hv => exact hv ⟨_, .inr rfl⟩
    · rw [e3] at hb
      cases hb with
      | null w b hw hv => rcases hw with hw | hw <;> cases hw
  · rw [clVisit] at hd
    cases hd
    cases C73_unique _ _ _ _ _ hu' ⟨_, 0, .nil _, clFund (by rfl) rfl⟩
    obtain ⟨c1, b1, a1, a2, a3, a4, a5, a6⟩ := ho.omitted 0 _ _ rfl e0 (by intro b hb; cases hb; rfl)
    obtain ⟨c2, b2, d1, d2, d3, d4, d5, d6⟩ := ho.omitted 2 _ _ rfl e2 (by intro b hb; cases hb)
    obtain ⟨_, g1⟩ := a6 (by
      intro u tag _ hm
      have := clClear _ _ hm
      revert this; decide)
    obtain ⟨_, g2⟩ := d6 trivial
    have f1 : ∃ id, c1 = .comp id ∧ dget st'.b.structs c%"node" = some id := by
      generalize hb : CTy.base c%"struct node" = v at a2
      cases a2 with
      | prim s p h => cases hb; rw [show dget ctypesTable c%"struct node" = none from rfl] at h; cases h
      | enum tag => cases hb
      | struct tag id h => cases hb; exact ⟨id, rfl, h⟩
      | union tag id h => cases hb
      | _ => cases hb
    obtain ⟨id, rfl, hid⟩ := f1
    have f2 : c2 = .prim c%"c_char_p" := by
      cases d2 with
      | special s p h => cases h; rfl
      | ptr c v h ho => exact absurd (ho.2 _ rfl) (by decide)
    subst f2
    refine ⟨res', st', m', m0, id, b1, b2, h1, hid, ?_, a1, d1, (ho.given 3 _ 7 rfl e3).1, g1 _ rfl, ?_, ?_⟩
    · rintro rfl
      exact absurd (ho.apart 0 2 _ _ _ a1 d1 rfl rfl) (by decide)
    · rw [g2 _ rfl]
      simp only [shown]
      rw [ho.after b2 d4]
    · have hr := ho.result (by intro u tag h; cases u <;> cases h)
      generalize res'.value (readOps st'.b.classes ext m') = x at hr
      cases hr with
      | void h => cases h
      | value p h =>
        cases h with
        | prim s p h => cases h; rfl
      | object c b h hc =>
        generalize hb : CTy.base _ = v at h
        cases h with
        | void => cases hb
        | prim s p h => exact (hc _ rfl).elim
        | enum tag => exact (hc _ rfl).elim
        | struct tag id h => cases hb
        | union tag id h => cases hb
        | _ => cases hb

/-- C75 fails for a struct with a member `value`: with `struct pair { int other; int value; }; void get(struct pair *p);`,
`lib.get()['p']` is the int member `value` of the struct and not the struct, so the rest of it cannot be read. -/
theorem C75_counterexample_value {R : Type} (z : R) (procs : Str → CProc Nat R) (ext : Nat → PyV Nat R) :
    let e := cxEnv [(c%"struct pair", .type (ctTy c%"struct" [.sym c%"pair"]))]
      [(c%"pair", .compound [⟨some c%"other", ctTy c%"int" [], .none, none⟩, ⟨some c%"value", ctTy c%"int" [], .none, none⟩] none)]
    let fns := [(c%"get", DefVal.func (.func (ctTy c%"void" []) [(some c%"p", ctTy c%"struct pair" [ctPtr], none)] [some [], some []]))]
    ∃ res st' m', runLib e 5 (ctLib e fns 5 [] (fun _ => true) false) z procs (.init exStart) ⟨fun _ => z, 0⟩ c%"get" [] [] = (.ok res, st', m') ∧
      res.args = [.ref (.comp 0) 0] ∧
      res.get (readOps st'.b.classes ext m') (.str c%"p") = .ok (.attr (.inst (.comp 0) 0) c%"value") :=
  by
  intro e fns
  refine ⟨_, _, _, rfl, ?_, ?_⟩ <;> rfl

/-- The example of /repo/docs/source/get_started/basic_usage.rst:264-275 fails: with `void allocate_array(int size, int **array);`
`_, (size, arr) = lib.allocate_array()` raises `TypeError`, since no object is made for the plain `int`. -/
theorem C75_counterexample_docs {R : Type} (z : R) (procs : Str → CProc Nat R) :
    let e := cxEnv [] []
    let fns := [(c%"allocate_array", DefVal.func (.func (ctTy c%"void" []) [(some c%"size", ctTy c%"int" [], none),
      (some c%"array", ctTy c%"int" [ctPtr, ctPtr], none)] [some [], some []]))]
    (runLib e 5 (ctLib e fns 5 [] (fun _ => true) false) z procs (.init exStart) ⟨fun _ => z, 0⟩ c%"allocate_array" [] []).1 =
      .error .typeError := by
  intro e fns
  rfl

end Pyclib
