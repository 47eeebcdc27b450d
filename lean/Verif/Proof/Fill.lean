import Verif.Props.Layout
import Verif.Spec.Fill
/-
Lemmas on bytes, and the storing of values into an object.
-/
namespace Pyclib
open Spec

/-! ### Bytes -/

theorem leBytes_length (n : Nat) (i : Int) : (leBytes n i).length = n := by
  induction n generalizing i with
  | zero => rfl
  | succ n ih => simp [leBytes, ih]

theorem leBytes_lt (n : Nat) (i : Int) : ∀ b ∈ leBytes n i, b < 256 := by
  induction n generalizing i with
  | zero => simp [leBytes]
  | succ n ih =>
    intro b hb
    rcases List.mem_cons.1 hb with rfl | hb
    · omega
    · exact ih _ b hb

theorem leNum_leBytes (n : Nat) (i : Int) : (leNum (leBytes n i) : Int) = i % 256 ^ n := by
  induction n generalizing i with
  | zero => simp [leBytes, leNum, Int.emod_one]
  | succ n ih =>
    simp only [leBytes, leNum, Int.natCast_add, Int.natCast_mul, ih]
    have h1 : ((i % 256).toNat : Int) = i % 256 := by omega
    rw [h1, Int.pow_succ, Int.mul_comm (256 ^ n) 256, show ((256 : Nat) : Int) = 256 from rfl]
    have h2 := Int.emod_add_mul_ediv i 256
    have hp : (0 : Int) < 256 ^ n := Int.pow_pos (by decide)
    generalize hq : i / 256 = q at *
    generalize hr : i % 256 = r at *
    have h3 := Int.emod_add_mul_ediv q (256 ^ n)
    have h4 := Int.emod_nonneg q (show (256 ^ n : Int) ≠ 0 by omega)
    have h5 := Int.emod_lt_of_pos q hp
    generalize hx : q % 256 ^ n = x at *
    generalize hy : q / 256 ^ n = y at *
    have h6 : i = (r + 256 * x) + 256 * 256 ^ n * y := by
      rw [← h2, ← h3, Int.mul_add, Int.mul_assoc]; omega
    rw [h6, Int.add_mul_emod_self_left]
    exact (Int.emod_eq_of_lt (by omega) (by omega)).symm

theorem bytesVal_leNum (bs : List Nat) : bytesVal bs = leNum bs := by
  have key : ∀ (bs : List Nat) (k : Nat), ((bs.zipIdx k).map (fun x => (x.1 : Int) * 256 ^ x.2)).sum = 256 ^ k * (leNum bs : Int) := by
    intro bs
    induction bs with
    | nil => intro k; simp [leNum]
    | cons b bs ih =>
      intro k
      simp only [List.zipIdx_cons, List.map_cons, List.sum_cons, ih, leNum, Int.natCast_add, Int.natCast_mul, Int.pow_succ, Int.mul_add]
      rw [Int.mul_comm (b : Int), Int.mul_assoc]
      rfl
  have := key bs 0
  simpa [bytesVal] using this

theorem zeros_leBytes (n : Nat) : List.replicate n 0 = leBytes n 0 := by
  induction n with
  | zero => rfl
  | succ n ih => simp [leBytes, List.replicate_succ, ← ih]

/-! ### Parts of an object -/

theorem bytesAt_get (b : List Nat) (o n i : Nat) : (bytesAt b o n)[i]? = if i < n then b[o + i]? else none := by
  unfold bytesAt
  rw [List.getElem?_take]
  split <;> simp [List.getElem?_drop]

theorem bytesAt_part (b : List Nat) {o n o' n' : Nat} (h : o' + n' ≤ n) : bytesAt (bytesAt b o n) o' n' = bytesAt b (o + o') n' := by
  apply List.ext_getElem?
  intro i
  rw [bytesAt_get, bytesAt_get, bytesAt_get]
  by_cases hi : i < n'
  · rw [if_pos hi, if_pos hi, if_pos (by omega)]; congr 1; omega
  · rw [if_neg hi, if_neg hi]

theorem bytesAt_zeros {N o n : Nat} (h : o + n ≤ N) : bytesAt (List.replicate N 0) o n = List.replicate n 0 := by
  apply List.ext_getElem?
  intro i
  rw [bytesAt_get, List.getElem?_replicate, List.getElem?_replicate]
  by_cases hi : i < n
  · rw [if_pos hi, if_pos hi, if_pos (by omega)]
  · rw [if_neg hi, if_neg hi]

theorem bytesAt_self (b : List Nat) {n : Nat} (h : b.length = n) : bytesAt b 0 n = b := by
  simp [bytesAt, ← h]

theorem setAt_length {b x : List Nat} {o : Nat} (h : o + x.length ≤ b.length) : (setAt b o x).length = b.length := by
  simp [setAt]; omega

theorem setAt_get {b x : List Nat} {o : Nat} (h : o + x.length ≤ b.length) (j : Nat) :
    (setAt b o x)[j]? = if j < o then b[j]? else if j < o + x.length then x[j - o]? else b[j]? := by
  unfold setAt
  have hl : (b.take o).length = o := by simp; omega
  rw [List.getElem?_append, hl]
  split
  · rw [List.getElem?_take, if_pos (by assumption)]
  · rw [List.getElem?_append]
    split
    · rw [if_pos (by omega)]
    · rw [if_neg (by omega), List.getElem?_drop]; congr 1; omega

theorem bytesAt_set_same {b x : List Nat} {o : Nat} (h : o + x.length ≤ b.length) : bytesAt (setAt b o x) o x.length = x := by
  apply List.ext_getElem?
  intro i
  rw [bytesAt_get, setAt_get h]
  split
  · rw [if_neg (by omega), if_pos (by omega)]; congr 1; omega
  · rw [List.getElem?_eq_none (by omega)]

theorem bytesAt_set_other {b x : List Nat} {o o' n' : Nat} (h : o + x.length ≤ b.length) (hd : o' + n' ≤ o ∨ o + x.length ≤ o') :
    bytesAt (setAt b o x) o' n' = bytesAt b o' n' := by
  apply List.ext_getElem?
  intro i
  rw [bytesAt_get, bytesAt_get]
  split
  · rw [setAt_get h]
    split
    · rfl
    · rw [if_neg (by omega)]
  · rfl

/-- Values stored into parts that do not overlap. -/
theorem fill_parts {many : PyErr} {E : (Cls → PyInit → Except PyErr (List Nat)) → Prop} : ∀ (vs : List PyInit) (xs : List (List Nat)) (slots : List (Nat × Cls))
    (b : List Nat), vs.length = xs.length →
    (∀ (i : Nat) v, vs[i]? = some v → ∃ o c x, slots[i]? = some (o, c) ∧ xs[i]? = some x ∧ (∀ enc, E enc → enc c v = .ok x) ∧ o + x.length ≤ b.length) →
    (∀ (i j o : Nat) (c : Cls) (x : List Nat) (o' : Nat) (c' : Cls), i < j → j < vs.length → slots[i]? = some (o, c) → xs[i]? = some x → slots[j]? = some (o', c') → o + x.length ≤ o') →
    ∃ b', (∀ enc, E enc → fillFrom many enc slots vs b = .ok b') ∧ b'.length = b.length ∧
      (∀ (i o : Nat) (c : Cls) (x : List Nat), slots[i]? = some (o, c) → xs[i]? = some x → bytesAt b' o x.length = x) ∧
      ∀ o' n', (∀ (i o : Nat) (c : Cls) (x : List Nat), slots[i]? = some (o, c) → xs[i]? = some x → o' + n' ≤ o ∨ o + x.length ≤ o') → bytesAt b' o' n' = bytesAt b o' n' := by
  intro vs
  induction vs with
  | nil =>
    intro xs slots b hl _ _
    cases xs with
    | nil => exact ⟨b, by intro enc _; cases slots <;> rfl, rfl, by simp, fun _ _ _ => rfl⟩
    | cons => simp at hl
  | cons v vs ih =>
    intro xs slots b hl h1 h2
    obtain ⟨o, c, x, e1, e2, e3, e4⟩ := h1 0 v rfl
    cases slots with
    | nil => simp at e1
    | cons sl slots =>
      cases xs with
      | nil => simp at hl
      | cons x' xs =>
        simp only [List.getElem?_cons_zero, Option.some.injEq] at e1 e2
        subst e1 e2
        have hlen := setAt_length e4
        obtain ⟨b', g1, g2, g3, g4⟩ := ih xs slots (setAt b o x') (by simpa using hl)
          (fun i v' hv => by
            obtain ⟨o1, c1, x1, q1, q2, q3, q4⟩ := h1 (i + 1) v' (by simpa using hv)
            exact ⟨o1, c1, x1, by simpa using q1, by simpa using q2, q3, by rw [hlen]; exact q4⟩)
          (fun i j o1 c1 x1 o2 c2 hij hj q1 q2 q3 => h2 (i + 1) (j + 1) o1 c1 x1 o2 c2 (by omega) (by simpa using hj) (by simpa using q1)
            (by simpa using q2) (by simpa using q3))
        refine ⟨b', fun enc he => by simp only [fillFrom, e3 enc he, g1 enc he], by rw [g2, hlen], fun i o1 c1 x1 q1 q2 => ?_, fun o' n' hd => ?_⟩
        · cases i with
          | zero =>
            simp only [List.getElem?_cons_zero, Option.some.injEq, Prod.mk.injEq] at q1 q2
            obtain ⟨rfl, rfl⟩ := q1
            subst q2
            rw [g4 o x'.length (fun i o2 c2 x2 r1 r2 => .inl ?_), bytesAt_set_same e4]
            refine h2 0 (i + 1) o c x' o2 c2 (by omega) ?_ rfl rfl (by simpa using r1)
            have := (List.getElem?_eq_some_iff.1 r2).1
            simp at hl ⊢; omega
          | succ i => exact g3 i o1 c1 x1 (by simpa using q1) (by simpa using q2)
        · rw [g4 o' n' (fun i o1 c1 x1 q1 q2 => hd (i + 1) o1 c1 x1 (by simpa using q1) (by simpa using q2)),
            bytesAt_set_other e4 (hd 0 o c x' rfl rfl)]

theorem fill_many {many : PyErr} {enc : Cls → PyInit → Except PyErr (List Nat)} : ∀ (vs : List PyInit) (slots : List (Nat × Cls)) (b : List Nat),
    slots.length < vs.length → ∃ x, fillFrom many enc slots vs b = .error x := by
  intro vs
  induction vs with
  | nil => intro slots b h; simp at h
  | cons v vs ih =>
    intro slots b h
    cases slots with
    | nil => exact ⟨_, rfl⟩
    | cons sl slots =>
      simp only [fillFrom]
      cases enc sl.2 v with
      | error x => exact ⟨x, rfl⟩
      | ok y => exact ih slots _ (by simpa using h)

/-! ### Offsets of members -/

theorem placed_parts {pack : Option Nat} {e e' : Nat} {l : List (Nat × Nat)} {os : List Nat} (h : Placed pack e l os e') :
    os.length = l.length ∧ e ≤ e' ∧ (∀ (i o sz al : Nat), os[i]? = some o → l[i]? = some (sz, al) → e ≤ o ∧ o + sz ≤ e') ∧
      ∀ (i j o sz al o' : Nat), i < j → os[i]? = some o → l[i]? = some (sz, al) → os[j]? = some o' → o + sz ≤ o' := by
  induction h with
  | nil => exact ⟨rfl, Nat.le_refl _, by simp, by simp⟩
  | cons e sz al o e' l os h _ ih =>
    obtain ⟨h1, h2, h3, h4⟩ := ih
    have ho := h.2.1
    refine ⟨by simp [h1], by omega, fun i o1 sz1 al1 q1 q2 => ?_, fun i j o1 sz1 al1 o2 hij q1 q2 q3 => ?_⟩
    · cases i with
      | zero => simp at q1 q2; omega
      | succ i => have := h3 i o1 sz1 al1 (by simpa using q1) (by simpa using q2); omega
    · cases j with
      | zero => omega
      | succ j =>
        cases i with
        | zero =>
          simp only [List.getElem?_cons_zero, Option.some.injEq, Prod.mk.injEq] at q1 q2
          have hj : os[j]? = some o2 := by simpa using q3
          obtain ⟨hlt, _⟩ := List.getElem?_eq_some_iff.1 hj
          have := h3 j o2 (l[j]'(by omega)).1 (l[j]'(by omega)).2 hj (List.getElem?_eq_getElem _)
          omega
        | succ i => exact h4 i j o1 sz1 al1 o2 (by omega) (by simpa using q1) (by simpa using q2) (by simpa using q3)

theorem compPlaced_parts {pack : Option Nat} {l : List (Nat × Nat)} {u : Bool} {os : List Nat} {sz al : Nat} (h : CompPlaced pack l u os sz al) :
    os.length = l.length ∧ (∀ (i o s a : Nat), os[i]? = some o → l[i]? = some (s, a) → o + s ≤ sz) ∧
      (u = false → ∀ (i j o s a o' : Nat), i < j → os[i]? = some o → l[i]? = some (s, a) → os[j]? = some o' → o + s ≤ o') := by
  cases h with
  | struct os e sz al h ha hz =>
    obtain ⟨h1, _, h3, h4⟩ := placed_parts h
    refine ⟨h1, fun i o s a q1 q2 => ?_, fun _ => h4⟩
    have := (h3 i o s a q1 q2).2
    have := hz.2.1
    omega
  | union os e sz al ho he ha hz =>
    refine ⟨ho.1, fun i o s a q1 q2 => ?_, by simp⟩
    have h0 := ho.2 o (List.mem_of_getElem? q1)
    have := he.2.1 s (List.mem_map.2 ⟨_, List.mem_of_getElem? q2, rfl⟩)
    have := hz.2.1
    omega

theorem members_get {cfg : Cfg} {s : Store DefVal} {abi : Abi} {ms : List Member} {l : List (Nat × Nat)} (h : Members cfg s abi false ms l) :
    ms.length = l.length ∧ ∀ (i : Nat) m, ms[i]? = some m → ∃ v sz al, l[i]? = some (sz, al) ∧ CMeaning cfg s m.type v ∧ Layout cfg s abi false v sz al := by
  induction ms generalizing l with
  | nil => cases h; exact ⟨rfl, by simp⟩
  | cons m ms ih =>
    cases h with
    | cons _ _ v sz al l _ hd hv h hms =>
      obtain ⟨h1, h2⟩ := ih hms
      refine ⟨by simp [h1], fun i m' hm => ?_⟩
      cases i with
      | zero => simp at hm; subst hm; exact ⟨v, sz, al, rfl, hv, h⟩
      | succ i => simpa using h2 i m' (by simpa using hm)

end Pyclib
