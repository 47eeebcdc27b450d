import Verif.Proof.Repr
import Verif.Props.Tables
/-! C82: the `repr` of a definition reads back as the definition. -/
namespace Pyclib
open Spec

theorem ok_opt {o : Option Str} (h : ∀ n, o = some n → TextOk n) : PyOk (optPy o) := by
  cases o with
  | none => trivial
  | some n => exact h n rfl

theorem ok_strs : ∀ {l : List Str}, (∀ w ∈ l, TextOk w) → PyOkL (strsPy l)
  | [], _ => trivial
  | w :: l, h => ⟨h w (by simp), ok_strs fun x hx => h x (by simp [hx])⟩

theorem len_quals : ∀ q : List Qual, Spec.PyObjs.len (qualsPy q) = q.length
  | [] => rfl
  | q :: l => by simp [qualsPy, Spec.PyObjs.len, len_quals l]

theorem len_mods : ∀ q : List CMod, Spec.PyObjs.len (modsPy q) = q.length
  | [] => rfl
  | q :: l => by simp [modsPy, Spec.PyObjs.len, len_mods l]

theorem quals_any : ∀ q : List Qual, (qualsPy q).any = true ↔ ∃ l, some l ∈ q ∧ l ≠ []
  | [] => by simp [qualsPy, PyObjs.any]
  | none :: l => by simp [qualsPy, PyObjs.any, qualPy, PyObj.truthy, quals_any l]
  | some [] :: l => by
    simp only [qualsPy, PyObjs.any, qualPy, strsPy, PyObj.truthy, Bool.false_or, quals_any l, List.mem_cons, Option.some.injEq]
    constructor
    · rintro ⟨x, h, hx⟩; exact ⟨x, .inr h, hx⟩
    · rintro ⟨x, h | h, hx⟩
      · exact absurd h hx
      · exact ⟨x, h, hx⟩
  | some (w :: ws) :: l => by
    simp only [qualsPy, PyObjs.any, qualPy, strsPy, PyObj.truthy, Bool.true_or, true_iff]
    exact ⟨w :: ws, by simp, by simp⟩

theorem ok_qualsL : ∀ {q : List Qual}, (∀ l, some l ∈ q → ∀ w ∈ l, TextOk w) → PyOkL (qualsPy q)
  | [], _ => trivial
  | none :: l, h => ⟨trivial, ok_qualsL fun x hx => h x (by simp [hx])⟩
  | some a :: l, h => ⟨ok_strs (h a (by simp)), ok_qualsL fun x hx => h x (by simp [hx])⟩

theorem quals_none : ∀ {q : List Qual}, none ∉ q → (∀ l, some l ∈ q → l = []) → qualsPy q = noQuals q.length
  | [], _, _ => rfl
  | none :: l, h, _ => by simp at h
  | some a :: l, h, h2 => by
    have := h2 a (by simp)
    subst this
    have ih := quals_none (q := l) (by simpa using h) (fun x hx => h2 x (by simp [hx]))
    simp [qualsPy, qualPy, strsPy, noQuals, ih]

theorem ok_quals {q : List Qual} (h : QualsShow q) :
    PyOkL (qualsPy q) ∧ ((qualsPy q).any = false → qualsPy q = noQuals (Spec.PyObjs.len (qualsPy q))) := by
  refine ⟨ok_qualsL h.1, fun ha => ?_⟩
  rw [len_quals]
  have hn : ¬ ∃ l, some l ∈ q ∧ l ≠ [] := by rw [← quals_any, ha]; simp
  exact quals_none (fun hm => hn (h.2 hm)) (fun l hl => by
    cases l with
    | nil => rfl
    | cons w ws => exact absurd ⟨_, hl, by simp⟩ hn)

theorem ok_dims : ∀ {d : List (Option Int)}, PyOkL (dimsPy d)
  | [] => trivial
  | none :: l => ⟨trivial, ok_dims⟩
  | some _ :: l => ⟨trivial, ok_dims⟩

/-- Everything inside is readable. -/
def InOk (t : CType) : Prop := ∀ u, Inside u t → LevelShow u ∧ QualsMatch u

mutual
theorem ok_mods : ∀ ms : List CMod, (∀ m ∈ ms, ModShow m) →
    (∀ ps, CMod.fn ps ∈ ms → ∀ p ∈ ps, InOk p.2.1) → PyOkL (modsPy ms)
  | [], _, _ => trivial
  | m :: ms, h, hp => ⟨ok_mod m (h m (by simp)) (fun ps e => hp ps (by simp [e])),
      ok_mods ms (fun x hx => h x (by simp [hx])) (fun ps e => hp ps (by simp [e]))⟩
theorem ok_mod : ∀ m : CMod, ModShow m → (∀ ps, m = CMod.fn ps → ∀ p ∈ ps, InOk p.2.1) → PyOk (modPy m)
  | .sym s, h, _ => h
  | .arr d, _, _ => ok_dims
  | .fn ps, h, hp => ok_params ps h (hp ps rfl)
theorem ok_params : ∀ ps : List Param, ModShow (.fn ps) → (∀ p ∈ ps, InOk p.2.1) → PyOkL (paramsPy ps)
  | [], _, _ => trivial
  | (n, ⟨s, ms, q⟩, d) :: ps, h, hp => by
    have h1 := h (n, ⟨s, ms, q⟩, d) (by simp)
    have h2 := hp (n, ⟨s, ms, q⟩, d) (by simp)
    obtain ⟨⟨t1, t2, t3⟩, t4⟩ := h2 _ (.refl _)
    have t5 := ok_quals t2
    refine ⟨⟨ok_opt h1.1, ⟨by simp, ?_, ⟨t1, ?_⟩, t5⟩, ok_opt h1.2, trivial⟩,
      ok_params ps (fun p hp' => h p (by simp [hp'])) (fun p hp' => hp p (by simp [hp']))⟩
    · simp only [QualsMatch] at t4
      simp [Spec.PyObjs.len, len_quals, len_mods, t4]; omega
    · exact ok_mods ms t3 (fun ps hf p hp' u hu => h2 u (.param _ _ ps p hf hp' hu))
end

theorem ok_type {t : CType} (h : InOk t) : PyOk (typePy t) := by
  obtain ⟨⟨t1, t2, t3⟩, t4⟩ := h t (.refl _)
  refine ⟨by simp, ?_, ⟨t1, ok_mods _ t3 (fun ps hf p hp' u hu => h u (.param _ _ ps p hf hp' hu))⟩, ok_quals t2⟩
  simp only [QualsMatch] at t4
  simp [Spec.PyObjs.len, len_quals, len_mods, t4]; omega

theorem ok_val {v : PVal} (h : ValShow v) : ∃ o, valPy v = some o ∧ PyOk o := by
  cases v with
  | none => exact ⟨_, rfl, trivial⟩
  | int i => exact ⟨_, rfl, trivial⟩
  | list l => exact ⟨_, rfl, ok_dims⟩
  | str s => exact ⟨_, rfl, h⟩
  | flt q => exact h.elim
  | other => exact h.elim

theorem ok_enum : ∀ {d : Dict Str PVal}, (∀ p ∈ d, TextOk p.1 ∧ ValShow p.2) → ∃ o, enumPy d = some o ∧ PyOkD o
  | [], _ => ⟨_, rfl, trivial⟩
  | (n, v) :: l, h => by
    obtain ⟨o, h1, h2⟩ := ok_val (h (n, v) (by simp)).2
    obtain ⟨l', h3, h4⟩ := ok_enum (d := l) (fun p hp => h p (by simp [hp]))
    exact ⟨.cons n o l', by simp [enumPy, h1, h3], (h (n, v) (by simp)).1, h2, h4⟩

theorem ok_members : ∀ {ms : List Member}, (∀ m ∈ ms, (∀ n, m.name = some n → TextOk n) ∧ ValShow m.val) →
    (∀ m ∈ ms, InOk m.type) → ∃ o, membersPy ms = some o ∧ PyOkL o ∧ (o = .nil → ms = [])
  | [], _, _ => ⟨_, rfl, trivial, fun _ => rfl⟩
  | m :: ms, h, ht => by
    obtain ⟨v, h1, h2⟩ := ok_val (h m (by simp)).2
    obtain ⟨l', h3, h4, -⟩ := ok_members (ms := ms) (fun p hp => h p (by simp [hp])) (fun p hp => ht p (by simp [hp]))
    refine ⟨.cons (.tup (.cons (optPy m.name) (.cons (typePy m.type) (.cons v (bitPy m.bit))))) l', by simp [membersPy, memberPy, h1, h3],
      ⟨⟨ok_opt (h m (by simp)).1, ok_type (ht m (by simp)), h2, ?_⟩, h4⟩, by simp⟩
    cases m.bit <;> simp [PyOkL, PyOk, bitPy]

/-- The objects behind readable definitions are readable. -/
theorem defPy_ok (k : Kind) {v : DefVal} (h : DefShow v) (hm : DefMatch v) : ∃ o, defPy k v = some o ∧ PyOk o := by
  obtain ⟨hp, ht⟩ := h
  have hin : ∀ t ∈ typesIn v, InOk t := fun t h u hu => ⟨ht t h u hu, hm t h u hu⟩
  cases v with
  | type t => exact ⟨_, rfl, ok_type (hin t (by simp [typesIn]))⟩
  | func f =>
    cases f with
    | plain t => exact ⟨_, rfl, ok_type (hin t (by simp [typesIn]))⟩
    | func r ps q =>
      obtain ⟨h1, h2, h3⟩ := hp
      refine ⟨_, rfl, ⟨by simp, ?_, ⟨ok_type (hin r (by simp [typesIn])), ok_params ps h2 (fun p hp => hin _ ?_), trivial⟩,
        ok_quals h1⟩⟩
      · simp [Spec.PyObjs.len, len_quals, h3]
      · simp only [typesIn, List.mem_cons, List.mem_map]; exact .inr ⟨p, hp, rfl⟩
  | var v t =>
    obtain ⟨o, h1, h2⟩ := ok_val hp
    exact ⟨.tup (.cons o (.cons (typePy t) .nil)), by simp [defPy, h1], h2, ok_type (hin t (by simp [typesIn])), trivial⟩
  | value v =>
    obtain ⟨o, h1, h2⟩ := ok_val hp
    exact ⟨o, by simp [defPy, h1], h2⟩
  | enum d =>
    obtain ⟨o, h1, h2⟩ := ok_enum hp
    exact ⟨.dict o, by simp [defPy, h1], h2⟩
  | compound ms pack =>
    obtain ⟨o, h1, h2, h3⟩ := ok_members hp.1 (fun m hm => hin _ (by simp only [typesIn, List.mem_map]; exact ⟨m, hm, rfl⟩))
    refine ⟨.comp (k = .unions) o (packPy pack), by simp [defPy, h1], h2, ?_, fun hn => ?_⟩
    · cases pack <;> trivial
    · rw [hp.2 (h3 hn)]; rfl
  | «macro» s => exact ⟨_, rfl, hp⟩
  | fnmacro f => exact hp.elim

/-! ### The objects determine the definitions -/

theorem optPy_inj {a b : Option Str} (h : optPy a = optPy b) : a = b := by
  cases a <;> cases b <;> simp_all [optPy]

theorem strsPy_inj : ∀ {a b : List Str}, strsPy a = strsPy b → a = b
  | [], [], _ => rfl
  | [], _ :: _, h => by simp [strsPy] at h
  | _ :: _, [], h => by simp [strsPy] at h
  | x :: a, y :: b, h => by
    simp only [strsPy, PyObjs.cons.injEq, PyObj.str.injEq] at h
    rw [h.1, strsPy_inj h.2]

theorem qualPy_inj {a b : Qual} (h : qualPy a = qualPy b) : a = b := by
  cases a <;> cases b <;> simp_all [qualPy]
  exact strsPy_inj h

theorem qualsPy_inj : ∀ {a b : List Qual}, qualsPy a = qualsPy b → a = b
  | [], [], _ => rfl
  | [], _ :: _, h => by simp [qualsPy] at h
  | _ :: _, [], h => by simp [qualsPy] at h
  | x :: a, y :: b, h => by
    simp only [qualsPy, PyObjs.cons.injEq] at h
    rw [qualPy_inj h.1, qualsPy_inj h.2]

theorem dimsPy_inj : ∀ {a b : List (Option Int)}, dimsPy a = dimsPy b → a = b
  | [], [], _ => rfl
  | [], none :: _, h => by simp [dimsPy] at h
  | [], some _ :: _, h => by simp [dimsPy] at h
  | none :: _, [], h => by simp [dimsPy] at h
  | some _ :: _, [], h => by simp [dimsPy] at h
  | none :: a, none :: b, h => by
    simp only [dimsPy, PyObjs.cons.injEq, true_and] at h
    rw [dimsPy_inj h]
  | some _ :: a, some _ :: b, h => by
    simp only [dimsPy, PyObjs.cons.injEq, PyObj.int.injEq] at h
    rw [h.1, dimsPy_inj h.2]
  | none :: _, some _ :: _, h => by simp [dimsPy] at h
  | some _ :: _, none :: _, h => by simp [dimsPy] at h

mutual
theorem modsPy_inj : ∀ a b : List CMod, modsPy a = modsPy b → a = b
  | [], [], _ => rfl
  | [], _ :: _, h => by simp [modsPy] at h
  | _ :: _, [], h => by simp [modsPy] at h
  | m :: a, n :: b, h => by
    simp only [modsPy, PyObjs.cons.injEq] at h
    rw [modPy_inj m n h.1, modsPy_inj a b h.2]
theorem modPy_inj : ∀ a b : CMod, modPy a = modPy b → a = b
  | .sym a, .sym b, h => by simp only [modPy, PyObj.str.injEq] at h; rw [h]
  | .arr a, .arr b, h => by simp only [modPy, PyObj.lst.injEq] at h; rw [dimsPy_inj h]
  | .fn a, .fn b, h => by simp only [modPy, PyObj.tup.injEq] at h; rw [paramsPy_inj a b h]
  | .sym _, .arr _, h => by simp [modPy] at h
  | .sym _, .fn _, h => by simp [modPy] at h
  | .arr _, .sym _, h => by simp [modPy] at h
  | .arr _, .fn _, h => by simp [modPy] at h
  | .fn _, .sym _, h => by simp [modPy] at h
  | .fn _, .arr _, h => by simp [modPy] at h
theorem paramsPy_inj : ∀ a b : List Param, paramsPy a = paramsPy b → a = b
  | [], [], _ => rfl
  | [], _ :: _, h => by simp [paramsPy] at h
  | _ :: _, [], h => by simp [paramsPy] at h
  | (n, ⟨s, ms, q⟩, d) :: ps, (n', ⟨s', ms', q'⟩, d') :: ps', h => by
    simp only [paramsPy, PyObjs.cons.injEq, PyObj.tup.injEq, PyObj.type.injEq, PyObj.str.injEq, and_true] at h
    obtain ⟨⟨h1, ⟨⟨rfl, h2⟩, h3⟩, h4⟩, h5⟩ := h
    rw [optPy_inj h1, modsPy_inj ms ms' h2, qualsPy_inj h3, optPy_inj h4, paramsPy_inj ps ps' h5]
end

theorem typePy_inj {a b : CType} (h : typePy a = typePy b) : a = b := by
  obtain ⟨s, ms, q⟩ := a
  obtain ⟨s', ms', q'⟩ := b
  simp only [typePy, PyObj.type.injEq, PyObjs.cons.injEq, PyObj.str.injEq] at h
  obtain ⟨⟨rfl, h2⟩, h3⟩ := h
  rw [modsPy_inj _ _ h2, qualsPy_inj h3]

theorem htypePy_inj {a b : HType} (h : htypePy a = htypePy b) : a = b := by
  cases a with
  | plain t =>
    cases b with
    | plain u => rw [typePy_inj h]
    | func r ps q => simp [htypePy, typePy] at h
  | func r ps q =>
    cases b with
    | plain u => simp [htypePy, typePy] at h
    | func r' ps' q' =>
      simp only [htypePy, PyObj.type.injEq, PyObjs.cons.injEq, PyObj.tup.injEq, and_true] at h
      rw [typePy_inj h.1.1, paramsPy_inj _ _ h.1.2, qualsPy_inj h.2]

theorem valPy_inj {a b : PVal} {o : PyObj} (ha : valPy a = some o) (hb : valPy b = some o) : a = b := by
  cases a <;> cases b <;> simp_all [valPy] <;> subst ha <;> simp_all
  exact (dimsPy_inj hb).symm

theorem enumPy_inj : ∀ {a b : Dict Str PVal} {o : PyDict}, enumPy a = some o → enumPy b = some o → a = b
  | [], [], _, _, _ => rfl
  | [], (n, v) :: l, o, h, h' => by
    simp only [enumPy] at h h'
    cases h
    split at h' <;> simp at h'
  | (n, v) :: l, [], o, h', h => by
    simp only [enumPy] at h h'
    cases h
    split at h' <;> simp at h'
  | (n, v) :: l, (n', v') :: l', o, h, h' => by
    simp only [enumPy] at h h'
    split at h <;> [skip; cases h]
    split at h' <;> [skip; cases h']
    rename_i x y e1 e2 _ _ x' y' e3 e4
    cases h
    simp only [Option.some.injEq, PyDict.cons.injEq] at h'
    obtain ⟨rfl, rfl, rfl⟩ := h'
    rw [valPy_inj e1 e3, enumPy_inj e2 e4]

theorem memberPy_inj {a b : Member} {o : PyObj} (ha : memberPy a = some o) (hb : memberPy b = some o) : a = b := by
  obtain ⟨n, t, v, bit⟩ := a
  obtain ⟨n', t', v', bit'⟩ := b
  simp only [memberPy, Option.map_eq_some_iff] at ha hb
  obtain ⟨x, h1, rfl⟩ := ha
  obtain ⟨y, h2, h3⟩ := hb
  simp only [PyObj.tup.injEq, PyObjs.cons.injEq] at h3
  obtain ⟨e1, e2, rfl, e4⟩ := h3
  rw [optPy_inj e1, typePy_inj e2, valPy_inj h2 h1]
  cases bit <;> cases bit' <;> simp_all [bitPy]

theorem membersPy_inj : ∀ {a b : List Member} {o : PyObjs}, membersPy a = some o → membersPy b = some o → a = b
  | [], [], _, _, _ => rfl
  | [], m :: l, o, h, h' => by
    simp only [membersPy] at h h'
    cases h
    split at h' <;> simp at h'
  | m :: l, [], o, h', h => by
    simp only [membersPy] at h h'
    cases h
    split at h' <;> simp at h'
  | m :: l, m' :: l', o, h, h' => by
    simp only [membersPy] at h h'
    split at h <;> [skip; cases h]
    split at h' <;> [skip; cases h']
    rename_i x y e1 e2 _ _ x' y' e3 e4
    cases h
    simp only [Option.some.injEq, PyObjs.cons.injEq] at h'
    obtain ⟨rfl, rfl⟩ := h'
    rw [memberPy_inj e1 e3, membersPy_inj e2 e4]

/-- Different definitions of a kind are different objects. -/
theorem defPy_inj {k : Kind} {a b : DefVal} {o : PyObj} (ka : OfKind k a) (kb : OfKind k b) (ha : defPy k a = some o)
    (hb : defPy k b = some o) : a = b := by
  cases a with
  | type t =>
    cases k <;> first | exact ka.elim | skip
    cases b <;> first | exact kb.elim | skip
    simp only [defPy, Option.some.injEq] at ha hb
    rw [typePy_inj (ha.trans hb.symm)]
  | func h =>
    cases k <;> first | exact ka.elim | skip
    cases b <;> first | exact kb.elim | skip
    simp only [defPy, Option.some.injEq] at ha hb
    rw [htypePy_inj (ha.trans hb.symm)]
  | var v t =>
    cases k <;> first | exact ka.elim | skip
    cases b <;> first | exact kb.elim | skip
    simp only [defPy, Option.map_eq_some_iff] at ha hb
    obtain ⟨x, h1, rfl⟩ := ha
    obtain ⟨y, h2, h3⟩ := hb
    simp only [PyObj.tup.injEq, PyObjs.cons.injEq, and_true] at h3
    obtain ⟨rfl, h4⟩ := h3
    rw [valPy_inj h1 h2, typePy_inj h4]
  | value v =>
    cases k <;> first | exact ka.elim | skip
    cases b <;> first | exact kb.elim | skip
    rw [valPy_inj (a := v) ha hb]
  | enum d =>
    cases k <;> first | exact ka.elim | skip
    cases b <;> first | exact kb.elim | skip
    simp only [defPy, Option.map_eq_some_iff] at ha hb
    obtain ⟨x, h1, rfl⟩ := ha
    obtain ⟨y, h2, h3⟩ := hb
    cases h3
    rw [enumPy_inj h1 h2]
  | compound ms p =>
    have main : ∀ ms' p', defPy k (.compound ms' p') = some o → DefVal.compound ms p = .compound ms' p' := by
      intro ms' p' hb
      simp only [defPy, Option.map_eq_some_iff] at ha hb
      obtain ⟨x, h1, rfl⟩ := ha
      obtain ⟨y, h2, h3⟩ := hb
      simp only [PyObj.comp.injEq, true_and] at h3
      obtain ⟨rfl, h3⟩ := h3
      rw [membersPy_inj h1 h2]
      cases p <;> cases p' <;> simp_all [packPy]
    cases k <;> first | exact ka.elim | skip
    all_goals (cases b <;> first | exact kb.elim | exact main _ _ hb)
  | «macro» s =>
    cases k <;> first | exact ka.elim | skip
    cases b <;> first | exact kb.elim | skip
    simp only [defPy, Option.some.injEq] at ha hb
    cases ha.trans hb.symm
    rfl
  | fnmacro f => simp [defPy] at ha

/-! ### C82 -/

/-- C82: `eval(repr(d)) == d` for the definitions that `repr` shows readably. -/
theorem C82_read (k : Kind) (v : DefVal) (h : DefShow v) (hm : DefMatch v) :
    ∃ o, defPy k v = some o ∧ pyRead o.repr = some o := by
  obtain ⟨o, h1, h2⟩ := defPy_ok k h hm
  exact ⟨o, h1, pyRead_repr o h2⟩

/-- C82: definitions of a kind with the same `repr` are the same. -/
theorem C82_same (k : Kind) (a b : DefVal) (ka : OfKind k a) (kb : OfKind k b) (ha : DefShow a) (hb : DefShow b)
    (ma : DefMatch a) (mb : DefMatch b) (oa ob : PyObj) (ea : defPy k a = some oa) (eb : defPy k b = some ob) :
    oa.repr = ob.repr ↔ a = b := by
  constructor
  · intro h
    obtain ⟨x, h1, h2⟩ := C82_read k a ha ma
    obtain ⟨y, h3, h4⟩ := C82_read k b hb mb
    rw [ea] at h1; cases h1
    rw [eb] at h3; cases h3
    rw [h, h4] at h2
    cases h2
    exact defPy_inj ka kb ea eb
  · rintro rfl
    rw [ea] at eb; cases eb; rfl

/-- Well-formed tables hold definitions of the right kind, with one qualifier group per level. -/
theorem tables_match (cfg : Cfg) (junk : Str → Str) (s : Store DefVal) (hs : TablesWf cfg junk s) (k : Kind) (n : Str)
    (v : DefVal) (h : dget (s.defs k) n = some v) : DefMatch v ∧ OfKind k v := by
  have hw : ∀ t : CType, TypeWf (TypeName cfg junk s) t → ∀ u, Inside u t → QualsMatch u := fun t ht u hu => (ht u hu).quals
  have tag : ∀ w tag, TagEntry s w tag → n = w ++ ' ' :: tag → k = .types → DefMatch v ∧ OfKind k v := by
    intro w tag ht hn hk
    subst hn hk
    unfold TagEntry at ht
    rw [ht] at h
    cases h
    refine ⟨fun t ht u hu => ?_, trivial⟩
    simp only [typesIn, List.mem_singleton] at ht
    subst ht
    cases hu with
    | refl => simp [QualsMatch]
    | param _ _ ps p hf => simp at hf
  have comp : ∀ u, CompoundWf cfg junk s u n v → DefMatch v ∧ ∃ ms p, v = .compound ms p := by
    rintro u ⟨-, ms, pack, rfl, hm⟩
    refine ⟨fun t ht u hu => ?_, ms, pack, rfl⟩
    simp only [typesIn, List.mem_map] at ht
    obtain ⟨m, hm1, rfl⟩ := ht
    rcases hm m hm1 with ⟨_, _, _, h⟩ | ⟨_, h1, h2⟩
    · exact hw _ h u hu
    · cases hu with
      | refl => simp [QualsMatch, h1, h2]
      | param _ _ ps p hf => rw [h1] at hf; simp at hf
  have he := hs k n v h
  cases k with
  | types =>
    rcases he with ⟨-, t, rfl, ht⟩ | ⟨u, tg, hn, hd⟩ | ⟨tg, hn, hd⟩
    · refine ⟨fun t' ht' => ?_, trivial⟩
      simp only [typesIn, List.mem_singleton] at ht'
      subst ht'
      exact hw _ ht
    · obtain ⟨v', hv'⟩ := Option.isSome_iff_exists.1 hd
      have := hs (compKind u) tg v' hv'
      cases u
      · exact tag _ _ this.1 hn rfl
      · exact tag _ _ this.1 hn rfl
    · obtain ⟨v', hv'⟩ := Option.isSome_iff_exists.1 hd
      have := hs .enums tg v' hv'
      exact tag c%"enum" tg this.1 (by simpa using hn) rfl
  | structs => obtain ⟨h1, ms, p, rfl⟩ := comp _ he; exact ⟨h1, trivial⟩
  | unions => obtain ⟨h1, ms, p, rfl⟩ := comp _ he; exact ⟨h1, trivial⟩
  | enums => obtain ⟨-, d, rfl, -⟩ := he; exact ⟨fun t ht => by simp [typesIn] at ht, trivial⟩
  | «variables» =>
    obtain ⟨-, -, val, t, rfl, ht, -⟩ := he
    refine ⟨fun t' ht' => ?_, trivial⟩
    simp only [typesIn, List.mem_singleton] at ht'
    subst ht'
    exact hw _ ht
  | functions =>
    obtain ⟨-, r, ps, qs, rfl, hr, hp, -⟩ := he
    refine ⟨fun t' ht' => ?_, trivial⟩
    simp only [typesIn, List.mem_cons, List.mem_map] at ht'
    rcases ht' with rfl | ⟨p, h1, rfl⟩
    · exact hw _ hr
    · exact hw _ (hp p h1)
  | values => obtain ⟨i, rfl⟩ := he; exact ⟨fun t ht => by simp [typesIn] at ht, trivial⟩
  | macros => obtain ⟨i, rfl⟩ := he; exact ⟨fun t ht => by simp [typesIn] at ht, trivial⟩
  | fnmacros => obtain ⟨i, rfl⟩ := he; exact ⟨fun t ht => by simp [typesIn] at ht, trivial⟩

/-- C82 for what processing headers records: every readable definition reads back, and two of a kind with
the same `repr` are the same. -/
theorem C82_files (w : Setup) (he : ExtraWords w.cfg) (fs : List (Str × Str)) (s : Store DefVal)
    (h : processFiles w Store.empty fs = .ok s) (k : Kind) (n : Str) (v : DefVal) (hd : dget (s.defs k) n = some v)
    (hv : DefShow v) :
    ∃ o, defPy k v = some o ∧ pyRead o.repr = some o ∧
      ∀ n' v' o', dget (s.defs k) n' = some v' → DefShow v' → defPy k v' = some o' → (o'.repr = o.repr ↔ v' = v) := by
  have hs := C69_files w he fs _ _ (C69_empty _ _) h
  have hm := tables_match _ _ s hs k n v hd
  obtain ⟨o, h1, h2⟩ := C82_read k v hv hm.1
  refine ⟨o, h1, h2, fun n' v' o' hd' hv' ho' => ?_⟩
  have hm' := tables_match _ _ s hs k n' v' hd'
  exact C82_same k v' v hm'.2 hm.2 hv' hv hm'.1 hm.1 o' o ho' h1

/-- The text that `repr` gives for a definition recorded from a header. -/
def fileRepr (text : Str) (k : Kind) (n : Str) : Option Str :=
  match fileGet text k n with
  | some (some v) => (defPy k v).map PyObj.repr
  | _ => none

/-- C82 at work: texts written for definitions of a header. -/
theorem C82_example :
    fileRepr c%"const char *f(int (*cb)(int a[4]), char **b);" .functions c%"f" =
      some c%"Type(Type('char', '*', type_quals=(('const',), ())), (('cb', Type('int', (('a', Type('int', [4]), None),), '*'), None), ('b', Type('char', '*', '*'), None)))" ∧
    fileRepr c%"#pragma pack(2)\n\nstruct S { char c; int b : 3; };" .structs c%"S" =
      some c%"Struct(('c', Type('char'), None), ('b', Type('int'), None, 3), pack=2)" ∧
    fileRepr c%"enum E { A = -1, B };" .enums c%"E" = some c%"{'A': -1, 'B': 0}" ∧
    pyRead c%"Struct(('c', Type('char'), None), ('b', Type('int'), None, 3), pack=2)" =
      some (.comp false
        (.cons (.tup (.cons (.str c%"c") (.cons (.type (.cons (.str c%"char") .nil) (.cons (.tup .nil) .nil)) (.cons .none .nil))))
        (.cons (.tup (.cons (.str c%"b") (.cons (.type (.cons (.str c%"int") .nil) (.cons (.tup .nil) .nil))
          (.cons .none (.cons (.int 3) .nil))))) .nil)) (.int 2)) := by
  refine ⟨by decide +kernel, by decide +kernel, by decide +kernel, by rfl⟩

/-- C82 fails for a packed struct without members (a mere mention of a tag where a packing is in force): the
text `Struct(, pack=2)` is no Python expression. -/
theorem C82_counterexample_pack :
    fileRepr c%"#pragma pack(2)\n\nstruct S;" .structs c%"S" = some c%"Struct(, pack=2)" ∧
    pyRead c%"Struct(, pack=2)" = none := ⟨by decide +kernel, by rfl⟩

/-- C82 fails for calling conventions: their `None` among the qualifiers is not written, and the text reads as
a type with an empty tuple instead, which is not equal (`Type.__eq__` compares `type_quals`). -/
theorem C82_counterexample_conv :
    let t : CType := ⟨c%"int", [.sym c%"__stdcall", .sym c%"*"], [some [], none, some []]⟩
    fileGet c%"int (__stdcall *x);" .variables c%"x" = some (some (.var .none t)) ∧
    (typePy t).repr = c%"Type('int', '__stdcall', '*')" ∧
    pyRead (typePy t).repr = some (typePy ⟨c%"int", [.sym c%"__stdcall", .sym c%"*"], [some [], some [], some []]⟩) :=
  ⟨by rfl, by decide +kernel, by rfl⟩

end Pyclib
