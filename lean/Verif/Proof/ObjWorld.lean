import Verif.Proof.ObjNum
import Verif.Props.Ctypes
/-! The definitions of a header satisfy the conditions of the backend theorems. -/
namespace Pyclib
open Spec

/-- The numbered definitions, types, and lists of a header. -/
abbrev lib (s : Store DefVal) (ts : List CType) : KDefs DefVal × List CType × Lists Owner :=
  libOf .shared .member .top s ts

/-- The fixed part of the backend for a header. -/
abbrev libEnv (cfg : Cfg) (types : Dict Str Str) (s : Store DefVal) (ts : List CType) : CtEnv :=
  ⟨cfg, (lib s ts).1, types⟩

/-- Who a list belongs to. -/
abbrev libOwn (s : Store DefVal) (ts : List CType) : Int → Owner := ownAt (lib s ts).2.2

/-- The length in a pair of brackets. -/
abbrev libDim (s : Store DefVal) (ts : List CType) : Int → Option Int := dimAt (lib s ts).2.2

section
variable {cfg : Cfg} {junk : Str → Str} {types : Dict Str Str} {s : Store DefVal} {ts : List CType}

theorem typeWf_deep {N : Str → Prop} {t : CType} (h : TypeWf N t) : DeepMods t := fun u hu m hm => (h u hu).mods m hm

theorem tag_deep (w tag : Str) (q : List Qual) : DeepArr ⟨w, [.sym tag], q⟩ := by
  intro u hu m hm d e
  cases hu with
  | refl => simp at hm; rw [hm] at e; cases e
  | param _ _ ps p hf hp hi => simp at hf

theorem lib_ext (s : Store DefVal) (ts : List CType) :
    (numTypes' .shared (s.defs .types) []).2 <+: (lib s ts).2.2 ∧
    (numComps .shared (Owner.member false) (s.defs .structs) (numTypes' .shared (s.defs .types) []).2).2 <+: (lib s ts).2.2 ∧
    (numComps .shared (Owner.member true) (s.defs .unions) (numComps .shared (Owner.member false) (s.defs .structs)
      (numTypes' .shared (s.defs .types) []).2).2).2 <+: (lib s ts).2.2 := by
  have h1 := (numTops_ok .top ts 0 (numComps .shared (Owner.member true) (s.defs .unions) (numComps .shared (Owner.member false)
    (s.defs .structs) (numTypes' .shared (s.defs .types) []).2).2).2).1
  have h2 := (numComps_ok (Owner.member true) (s.defs .unions) (numComps .shared (Owner.member false) (s.defs .structs)
    (numTypes' .shared (s.defs .types) []).2).2).1
  have h3 := (numComps_ok (Owner.member false) (s.defs .structs) (numTypes' .shared (s.defs .types) []).2).1
  exact ⟨h3.trans (h2.trans h1), h2.trans h1, h1⟩

/-- The types of the header, numbered. -/
theorem lib_types (hs : TablesWf cfg junk s) (n : Str) :
    (dget (s.defs .types) n = none ∧ dget ((lib s ts).1 .types) n = none) ∨
    ∃ t t', dget (s.defs .types) n = some (.type t) ∧ dget ((lib s ts).1 .types) n = some (.type t') ∧
      TypeOk (lib s ts).2.2 .shared t t' := by
  rcases (numTypes_ok (s.defs .types) []).2 _ (lib_ext s ts).1 n with h | ⟨v, v', h1, h2, h3⟩
  · exact .inl h
  · obtain ⟨t, rfl⟩ := C69_types cfg junk s hs n v h1
    obtain ⟨t', rfl, h4⟩ := h3
    refine .inr ⟨t, t', h1, h2, h4 ?_⟩
    rcases hs _ _ _ h1 with ⟨_, t, e, h5⟩ | ⟨u, tag, rfl, hh⟩ | ⟨tag, rfl, hh⟩
    · cases e; exact (typeWf_deep h5).arr
    · cases (C69_tags cfg junk s hs u tag).2 _ h1; exact tag_deep _ _ _
    · cases (C69_enums cfg junk s hs tag).2 _ h1; exact tag_deep _ _ _

theorem lib_tm (hs : TablesWf cfg junk s) : NumTab (libDim s ts) (typeTable (s.defs .types)) (libEnv cfg types s ts).tm := by
  intro n
  rcases lib_types (ts := ts) hs n with ⟨h1, h2⟩ | ⟨t, t', h1, h2, h3⟩
  · exact .inl ⟨(typeTable_get _ n).2 h1, (typeTable_get _ n).2 h2⟩
  · exact .inr ⟨t, t', (typeTable_get _ n).1 _ h1, (typeTable_get _ n).1 _ h2, h3.num⟩

theorem memberWf_deep {N : Str → Prop} {m : Member} (h : MemberWf cfg N m) : DeepMods m.type ∧ QualsMatch m.type ∧
    ∀ q ∈ m.type.quals.head?, q ≠ none := by
  rcases h with ⟨n, _, _, h⟩ | ⟨_, h1, h2⟩
  · exact ⟨typeWf_deep h, (h _ (.refl _)).quals, (h _ (.refl _)).base⟩
  · refine ⟨fun u hu m' hm => ?_, by simp [QualsMatch, h1, h2], by simp [h2]⟩
    cases hu with
    | refl => rw [h1] at hm; cases hm
    | param _ _ ps p hf hp hi => rw [h1] at hf; cases hf

/-- The structs and unions of the header, numbered. -/
theorem lib_comps (hs : TablesWf cfg junk s) (u : Bool) (tag : Str) :
    (dget (s.defs (compKind u)) tag = none ∧ dget ((lib s ts).1 (compKind u)) tag = none) ∨
    ∃ ms ms' pack, dget (s.defs (compKind u)) tag = some (.compound ms pack) ∧
      dget ((lib s ts).1 (compKind u)) tag = some (.compound ms' pack) ∧ MemsOk (lib s ts).2.2 (.member u tag) 0 ms ms' := by
  have key : ∀ v, dget (s.defs (compKind u)) tag = some v → ∃ ms pack, v = .compound ms pack := by
    intro v hv
    have := hs _ _ _ hv
    cases u <;> obtain ⟨_, ms, pack, e, _⟩ := this <;> exact ⟨ms, pack, e⟩
  cases u with
  | false =>
    rcases (numComps_ok (Owner.member false) (s.defs .structs) (numTypes' .shared (s.defs .types) []).2).2 _
      (lib_ext s ts).2.1 tag with h | ⟨v, v', h1, h2, h3⟩
    · exact .inl h
    · obtain ⟨ms, pack, rfl⟩ := key v h1
      obtain ⟨ms', rfl, h4⟩ := h3
      exact .inr ⟨ms, ms', pack, h1, h2, h4⟩
  | true =>
    rcases (numComps_ok (Owner.member true) (s.defs .unions) (numComps .shared (Owner.member false) (s.defs .structs)
      (numTypes' .shared (s.defs .types) []).2).2).2 _ (lib_ext s ts).2.2 tag with h | ⟨v, v', h1, h2, h3⟩
    · exact .inl h
    · obtain ⟨ms, pack, rfl⟩ := key v h1
      obtain ⟨ms', rfl, h4⟩ := h3
      exact .inr ⟨ms, ms', pack, h1, h2, h4⟩

theorem comp_members (hs : TablesWf cfg junk s) {u : Bool} {tag : Str} {ms : List Member} {pack : Option Nat}
    (h : dget (s.defs (compKind u)) tag = some (.compound ms pack)) {m : Member} (hm : m ∈ ms) :
    MemberWf cfg (TypeName cfg junk s) m := by
  have := hs _ _ _ h
  cases u <;> obtain ⟨_, ms', pack', e, h2⟩ := this <;> cases e <;> exact h2 m hm

/-- A numbered type meets the conditions of the backend if its shape does. -/
theorem typeOk_good (hs : TablesWf cfg junk s) {o : Owner} {t t' : CType} (h : TypeOk (lib s ts).2.2 o t t')
    (hq : QualsMatch t) (hb : ∀ q ∈ t.quals.head?, q ≠ none) (shared : Bool) (ho : o = .shared → shared = true)
    (hsh : ShapeOk cfg s shared t) : TyGood (libEnv cfg types s ts) (libOwn s ts) o t' := by
  refine ⟨by unfold QualsMatch; rw [h.num.quals, h.num.mods.len]; exact hq, by rw [h.num.quals]; exact hb,
    h.num.mods.refs, h.own, h.nodup, fun b hr => ?_⟩
  obtain ⟨h1, h2, h3⟩ := num_shape (lib_tm (types := types) (ts := ts) hs) h.num hsh b hr
  exact ⟨h1, fun e => h2 (ho e), h3⟩

/-- The same for all types inside. -/
theorem typeOk_inside (hs : TablesWf cfg junk s) {o : Owner} {t t' : CType} (h : TypeOk (lib s ts).2.2 o t t')
    (hw : ∀ ps p, .fn ps ∈ t.mods → p ∈ ps → TypeWf (TypeName cfg junk s) p.2.1)
    (hsh : ∀ ps p u, .fn ps ∈ t.mods → p ∈ ps → Inside u p.2.1 → ShapeOk cfg s true u)
    (ps : List Param) (p : Param) (u : CType) (hf : .fn ps ∈ t'.mods) (hp : p ∈ ps) (hu : Inside u p.2.1) :
    TyGood (libEnv cfg types s ts) (libOwn s ts) .shared u := by
  obtain ⟨ps0, h1, h2⟩ := h.num.mods.mem_fn hf
  obtain ⟨p0, h3, h4⟩ := h2.mem hp
  obtain ⟨u0, h5, h6⟩ := num_inside hu h4
  obtain ⟨h7, h8⟩ := h.inside ps p u hf hp hu
  have hl := hw ps0 p0 h1 h3 u0 h5
  refine ⟨by unfold QualsMatch; rw [h6.quals, h6.mods.len]; exact hl.quals, by rw [h6.quals]; exact hl.base,
    h6.mods.refs, h8, h7, fun b hr => ?_⟩
  obtain ⟨e1, e2, e3⟩ := num_shape (lib_tm (types := types) (ts := ts) hs) h6 (hsh ps0 p0 u0 h1 h3 h5) b hr
  exact ⟨e1, fun _ => e2 rfl, e3⟩

theorem typeOk_ty (hs : TablesWf cfg junk s) {o : Owner} {t t' : CType} (h : TypeOk (lib s ts).2.2 o t t')
    (hw : TypeWf (TypeName cfg junk s) t) (shared : Bool) (ho : o = .shared → shared = true) (hsh : ShapesOk cfg s shared t) :
    TyOk (libEnv cfg types s ts) (libOwn s ts) o t' :=
  ⟨typeOk_good hs h (hw _ (.refl _)).quals (hw _ (.refl _)).base shared ho hsh.1,
    typeOk_inside hs h (fun ps p h1 h2 u hu => hw u (.param t u ps p h1 h2 hu)) hsh.2⟩

theorem typeWf_word {t u : CType} {N : Str → Prop} (h : TypeWf N t) (hu : Inside u t) : TypeWf N u := by
  intro w hw
  induction hu with
  | refl => exact h w hw
  | param t u ps p hf hp hi ih => exact ih (fun w hw => h w (.param t w ps p hf hp hw)) hw

theorem types_word (hs : TablesWf cfg junk s) (w : Str) (hw : w ∈ [c%"struct", c%"union", c%"enum"]) :
    dget (s.defs .types) w = none := by
  cases h : dget (s.defs .types) w with
  | none => rfl
  | some v =>
    simp only [List.mem_cons, List.not_mem_nil, or_false] at hw
    rcases hs _ _ _ h with ⟨⟨_, _, hk⟩, _⟩ | ⟨u, tag, e, _⟩ | ⟨tag, e, _⟩
    · refine absurd (.inl ?_) hk
      rcases hw with rfl | rfl | rfl <;> decide
    · have : ' ' ∈ w := by rw [e]; simp
      rcases hw with rfl | rfl | rfl <;> exact absurd this (by decide)
    · have : ' ' ∈ w := by rw [e]; simp
      rcases hw with rfl | rfl | rfl <;> exact absurd this (by decide)

theorem isFund_word (hl : LibOk cfg types s) (w : Str) (hw : w ∈ [c%"struct", c%"union", c%"enum"]) : isFund cfg w = false := by
  have hf := hl.words w hw
  rw [fundWord_iff] at hf
  simp only [List.mem_cons, List.not_mem_nil, or_false] at hw
  rcases hw with rfl | rfl | rfl <;>
  · unfold isFund
    rw [if_neg (by decide), List.all_eq_false]
    exact ⟨_, List.mem_singleton.2 rfl, by simpa using hf⟩

theorem word_notFund (hl : LibOk cfg types s) (w : Str) (hw : w ∈ [c%"struct", c%"union", c%"enum"]) : ¬ Fundamental cfg w :=
  not_fund_of_isFund (isFund_word hl w hw)

/-- `struct`, `union` and `enum` alone are no types. -/
theorem word_shape (hs : TablesWf cfg junk s) (hl : LibOk cfg types s) (t : CType)
    (ht : t.spec ∈ [c%"struct", c%"union", c%"enum"]) (sh : Bool) : ShapeOk cfg s sh t := by
  intro b hr
  cases hr with
  | base hf => exact absurd hf (word_notFund hl _ ht)
  | step hf hd hsp hr =>
    rw [(typeTable_get _ _).2 (types_word hs _ ht)] at hd
    cases hd

theorem compWord_mem (u : Bool) : compWord u ∈ [c%"struct", c%"union", c%"enum"] := by cases u <;> decide

theorem tag_inside {w tag : Str} {q : List Qual} {u : CType} (h : Inside u ⟨w, [.sym tag], q⟩) : u = ⟨w, [.sym tag], q⟩ := by
  cases h with
  | refl => rfl
  | param _ _ ps p hf hp hi => simp at hf

theorem name_not_tag {n : Str} (h : IsName cfg n) : ' ' ∉ n := by
  intro hm
  have := h.2.1 ' ' hm
  revert this; decide

/-- What the table of types holds: typedefs and tags. -/
theorem types_cases (hs : TablesWf cfg junk s) {n : Str} {t : CType} (h : dget (s.defs .types) n = some (.type t)) :
    (IsName cfg n ∧ TypeWf (TypeName cfg junk s) t) ∨
    ∃ w tag, w ∈ [c%"struct", c%"union", c%"enum"] ∧ n = w ++ ' ' :: tag ∧ t = ⟨w, [.sym tag], [some [], some []]⟩ := by
  rcases hs _ _ _ h with ⟨hn, t, e, h5⟩ | ⟨u, tag, rfl, hh⟩ | ⟨tag, rfl, hh⟩
  · cases e; exact .inl ⟨hn, h5⟩
  · cases (C69_tags cfg junk s hs u tag).2 _ h
    exact .inr ⟨_, tag, compWord_mem u, rfl, rfl⟩
  · cases (C69_enums cfg junk s hs tag).2 _ h
    exact .inr ⟨c%"enum", tag, by simp, rfl, rfl⟩

/-- The definitions of a header meet the conditions of the backend theorems. -/
theorem lib_world (hs : TablesWf cfg junk s) (hl : LibOk cfg types s) :
    CtWorld (libEnv cfg types s ts) (libOwn s ts) := by
  refine ⟨?_, ?_, ?_⟩
  · intro n pt u hd hu
    rcases lib_tm (types := types) (ts := ts) hs n with ⟨_, h2⟩ | ⟨t, t', h1, h2, _⟩
    · rw [h2] at hd; cases hd
    · rw [h2] at hd; cases hd
      rcases lib_types (ts := ts) hs n with ⟨e1, _⟩ | ⟨t0, t0', e1, e2, e3⟩
      · rw [(typeTable_get _ n).2 e1] at h1; cases h1
      · rw [(typeTable_get _ n).1 _ e1] at h1; cases h1
        have h2' : dget (libEnv cfg types s ts).tm n = some t0' := (typeTable_get _ n).1 _ e2
        rw [h2'] at h2; cases h2
        rcases types_cases hs e1 with ⟨hn, hw⟩ | ⟨w, tag, hw, rfl, rfl⟩
        · obtain ⟨hsh, _⟩ := hl.typedefs n t hn e1
          have hty := typeOk_ty (types := types) hs e3 hw true (fun _ => rfl) hsh
          cases hu with
          | refl => exact hty.1
          | param _ _ ps p hf hp hi => exact hty.2 ps p u hf hp hi
        · have hg := typeOk_good (types := types) hs e3 (by rfl) (by simp) true (fun _ => rfl) (word_shape hs hl _ hw true)
          cases hu with
          | refl => exact hg
          | param _ _ ps p hf hp hi =>
            obtain ⟨ps0, h1, _⟩ := e3.num.mods.mem_fn hf
            simp at h1
  · intro u tag pt hd
    rcases lib_types (ts := ts) hs (compWord u ++ ' ' :: tag) with ⟨_, e2⟩ | ⟨t, t', e1, e2, e3⟩
    · rw [show dget (libEnv cfg types s ts).tm _ = none from (typeTable_get _ _).2 e2] at hd; cases hd
    · rw [show dget (libEnv cfg types s ts).tm _ = some t' from (typeTable_get _ _).1 _ e2] at hd; cases hd
      cases (C69_tags cfg junk s hs u tag).2 _ e1
      constructor
      · have := e3.num.mods
        generalize pt.mods = l at this ⊢
        cases this with
        | sym _ _ ms' h => rfl
      · have hh := (C69_tags cfg junk s hs u tag).1.2 (by unfold dhas; rw [e1]; rfl)
        rcases lib_comps (ts := ts) hs u tag with ⟨h1, _⟩ | ⟨ms, ms', pack, _, h2, _⟩
        · unfold dhas at hh; rw [h1] at hh; cases hh
        · show dhas ((lib s ts).1 (compKind u)) tag = true
          unfold dhas; rw [h2]; rfl
  · intro u tag ms' pack j m' hd hj
    rcases lib_comps (ts := ts) hs u tag with ⟨_, h1⟩ | ⟨ms, ms1, pack1, h1, h2, h3, h4⟩
    · rw [show dget ((libEnv cfg types s ts).defs (compKind u)) tag = none from h1] at hd; cases hd
    · rw [show dget ((libEnv cfg types s ts).defs (compKind u)) tag = some _ from h2] at hd; cases hd
      have hjl : j < ms.length := by rw [← h3]; exact (List.getElem?_eq_some_iff.1 hj).1
      obtain ⟨t', h5, h6⟩ := h4 j ms[j] (List.getElem?_eq_getElem hjl)
      rw [hj] at h5; cases h5
      have hmem : ms[j] ∈ ms := List.getElem_mem hjl
      have hmw := comp_members hs h1 hmem
      obtain ⟨d1, d2, d3⟩ := memberWf_deep hmw
      have hto := h6 d1.arr
      rw [Nat.zero_add] at hto
      obtain ⟨hsh, _⟩ := hl.members u tag ms pack _ h1 hmem
      refine ⟨typeOk_good hs hto d2 d3 false (by simp) hsh.1, typeOk_inside hs hto ?_ hsh.2⟩
      intro ps p hf hp
      rcases hmw with ⟨n, _, _, h⟩ | ⟨_, h1, _⟩
      · exact fun u hu => h u (.param _ u ps p hf hp hu)
      · rw [h1] at hf; cases hf

theorem lib_means (hs : TablesWf cfg junk s) {o : Owner} {t t' : CType} (h : TypeOk (lib s ts).2.2 o t t') (hd : DeepMods t) {v : CTy}
    (hv : CMeaning cfg s t v) : Means cfg (libEnv cfg types s ts).tm (libDim s ts) t' v := by
  obtain ⟨u, k, h1, h2⟩ := hv
  refine num_means (lib_tm (types := types) (ts := ts) hs) ?_ k t t' u v h.num h1 hd h2
  intro n t hn hf
  rcases types_cases hs hn with ⟨_, hw⟩ | ⟨w, tag, hw, rfl, rfl⟩
  · exact typeWf_deep hw
  · refine absurd ?_ hf
    simp only [List.mem_cons, List.not_mem_nil, or_false] at hw
    rcases hw with rfl | rfl | rfl
    · exact .inl ⟨tag, rfl⟩
    · exact .inr (.inl ⟨tag, rfl⟩)
    · exact .inr (.inr (.inl ⟨tag, rfl⟩))

theorem lib_known (hs : TablesWf cfg junk s) (u : Bool) (tag : Str) (h : DefinedTag s u tag) :
    KnownTag (libEnv cfg types s ts) u tag := by
  have h1 := (C69_tags cfg junk s hs u tag).1.1 h
  rcases lib_types (ts := ts) hs (compWord u ++ ' ' :: tag) with ⟨e1, _⟩ | ⟨t, t', _, e2, _⟩
  · unfold dhas at h1; rw [e1] at h1; cases h1
  · exact ⟨t', (typeTable_get _ _).1 _ e2⟩

theorem buildable_mono {types : Dict Str Str} {k k' : Bool → Str → Prop} (h : ∀ u tag, k u tag → k' u tag) {v : CTy}
    (hb : Buildable types k v) : Buildable types k' v := by
  induction hb with
  | prim s p h => exact .prim s p h
  | void => exact .void
  | enum tag => exact .enum tag
  | struct tag hk => exact .struct tag (h _ _ hk)
  | union tag hk => exact .union tag (h _ _ hk)
  | ptr v _ ih => exact .ptr v ih
  | ref v _ ih => exact .ref v ih
  | arr n v hn hv _ ih => exact .arr n v hn hv ih
  | incomplete v _ ih => exact .incomplete v ih
  | fnptr cs v _ hv _ ih1 ih2 => exact .fnptr cs v ih1 hv ih2

theorem lib_build (hs : TablesWf cfg junk s) (hl : LibOk cfg types s) :
    CtBuild (libEnv cfg types s ts) (libDim s ts) ∧
    ∀ m ∈ allMembers (libEnv cfg types s ts), FiniteParams (libEnv cfg types s ts) m.type := by
  have key : ∀ u tag ms' pack m', dget ((lib s ts).1 (compKind u)) tag = some (.compound ms' pack) → m' ∈ ms' →
      ∃ ms m t', dget (s.defs (compKind u)) tag = some (.compound ms pack) ∧ m ∈ ms ∧ m' = { m with type := t' } ∧
        ∃ o, TypeOk (lib s ts).2.2 o m.type t' := by
    intro u tag ms' pack m' hd hm
    rcases lib_comps (ts := ts) hs u tag with ⟨_, h1⟩ | ⟨ms, ms1, pack1, h1, h2, h3, h4⟩
    · rw [h1] at hd; cases hd
    · rw [h2] at hd; cases hd
      obtain ⟨j, hj⟩ := List.getElem?_of_mem hm
      have hjl : j < ms.length := by rw [← h3]; exact (List.getElem?_eq_some_iff.1 hj).1
      obtain ⟨t', h5, h6⟩ := h4 j ms[j] (List.getElem?_eq_getElem hjl)
      rw [hj] at h5
      have hmem : ms[j] ∈ ms := List.getElem_mem hjl
      exact ⟨ms, ms[j], t', h1, hmem, Option.some.inj h5, _, h6 (memberWf_deep (comp_members hs h1 hmem)).1.arr⟩
  refine ⟨⟨?_, ?_, ?_, hl.simple⟩, ?_⟩
  · intro u tag d hd
    rcases lib_comps (ts := ts) hs u tag with ⟨_, h1⟩ | ⟨ms, ms1, pack1, h1, h2, h3, h4⟩
    · rw [show dget ((libEnv cfg types s ts).defs (compKind u)) tag = none from h1] at hd; cases hd
    · rw [show dget ((libEnv cfg types s ts).defs (compKind u)) tag = some _ from h2] at hd; cases hd
      exact ⟨_, _, rfl⟩
  · intro u tag ms' pack m' hd hm
    obtain ⟨ms, m, t', h1, h2, rfl, o, h3⟩ := key u tag ms' pack m' hd hm
    obtain ⟨_, _, v, hv, hb, h4, h5, h6⟩ := hl.members u tag ms pack m h1 h2
    exact ⟨v, lib_means hs h3 (memberWf_deep (comp_members hs h1 h2)).1 hv,
      buildable_mono (fun u tag => lib_known hs u tag) hb, h4, h5, h6⟩
  · intro n pt hd
    rcases lib_types (ts := ts) hs n with ⟨_, e2⟩ | ⟨t, t', e1, e2, e3⟩
    · rw [show dget (libEnv cfg types s ts).tm _ = none from (typeTable_get _ _).2 e2] at hd; cases hd
    · rw [show dget (libEnv cfg types s ts).tm _ = some t' from (typeTable_get _ _).1 _ e2] at hd; cases hd
      rw [e3.num.quals]
      rcases types_cases hs e1 with ⟨hn, _⟩ | ⟨w, tag, hw, rfl, rfl⟩
      · exact (hl.typedefs n t hn e1).2
      · simp
  · intro m' hm
    obtain ⟨u, tag, ms', pack, hd, hm⟩ := allMembers_iff.1 hm
    obtain ⟨ms, m, t', h1, h2, rfl, o, h3⟩ := key u tag ms' pack m' hd hm
    exact num_finite (e := ⟨cfg, s.defs, types⟩) (e' := libEnv cfg types s ts) rfl (lib_tm hs) (hl.members u tag ms pack m h1 h2).2.1 h3.num

end

end Pyclib
