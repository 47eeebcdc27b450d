import Verif.Proof.ObjWorld
import Verif.Proof.EqB
import Verif.Props.Grammar
import Verif.Props.File
/-!
C70: from the declarations of a header to ctypes classes.

Full statement: for every header of C, the class of each variable, parameter, result and member mirrors its
declared C type.  It is proved for headers whose definitions satisfy `LibOk` (Spec/Classes.lean); the shapes left
out are those of C47 (see the counterexamples there).
-/
namespace Pyclib
open Spec

/-! ### Every recorded type has a C type -/

mutual
theorem den_mods : ∀ (ms : List CMod), (∀ m ∈ ms, ModWf m) → (∀ ps p, .fn ps ∈ ms → p ∈ ps → DeepMods p.2.1) →
    ∀ (ns : List (Option Int)) (b : CTy), ∃ u, DenMods b (ns.map (fun n => .arr [n]) ++ ms) u
  | [], _, _ => by
    intro ns b
    cases ns with
    | nil => exact ⟨b, .nil b⟩
    | cons n ns => exact ⟨_, .arrs n ns b [] _ (by simp) (.nil _)⟩
  | m :: ms, hm, hp => by
    have ih := den_mods ms (fun m h => hm m (by simp [h])) (fun ps p h => hp ps p (by simp [h]))
    have key : (∃ d, m = .arr d) ∨ (∀ l, m ≠ .arr l) ∧ ∀ b, ∃ u, DenMods b (m :: ms) u := by
      match m, hm m (by simp), (fun ps p (h : m = CMod.fn ps) => hp ps p (by simp [h])) with
      | .arr d, _, _ => exact .inl ⟨d, rfl⟩
      | .sym s, h, _ =>
        refine .inr ⟨by simp, fun b => ?_⟩
        by_cases h1 : s = c%"*"
        · obtain ⟨u, hu⟩ := ih [] (.ptr b); rw [h1]; exact ⟨u, .ptr _ _ _ hu⟩
        · by_cases h2 : s = c%"&"
          · obtain ⟨u, hu⟩ := ih [] (.ref b); rw [h2]; exact ⟨u, .ref _ _ _ hu⟩
          · obtain ⟨u, hu⟩ := ih [] b; exact ⟨u, .conv s _ _ _ ⟨h1, h2⟩ hu⟩
      | .fn ps, _, hps =>
        refine .inr ⟨by simp, fun b => ?_⟩
        obtain ⟨cs, hc⟩ := den_params ps (fun p h => hps ps p rfl h)
        obtain ⟨u, hu⟩ := ih [] (.fn cs b)
        exact ⟨u, .fn _ _ _ _ _ hc hu⟩
    intro ns b
    rcases key with ⟨d, rfl⟩ | ⟨h1, h2⟩
    · obtain ⟨n, rfl⟩ := hm (.arr d) (by simp)
      obtain ⟨u, hu⟩ := ih (ns ++ [n]) b
      exact ⟨u, by simpa using hu⟩
    · cases ns with
      | nil => exact h2 b
      | cons n ns =>
        obtain ⟨u, hu⟩ := h2 (arrsOf (n :: ns) b)
        exact ⟨u, .arrs n ns b _ _ (fun l e => h1 l (by simpa using e)) hu⟩
theorem den_params : ∀ (ps : List Param), (∀ p ∈ ps, DeepMods p.2.1) → ∃ cs, DenParams ps cs
  | [], _ => ⟨[], .nil⟩
  | (n, ⟨s, ms, q⟩, d) :: ps, h => by
    have hd := h (n, ⟨s, ms, q⟩, d) (by simp)
    obtain ⟨u, hu⟩ := den_mods ms (fun m h => hd _ (.refl _) m h) (fun ps p h1 h2 => hd.param h1 h2) [] (.base s)
    obtain ⟨cs, hc⟩ := den_params ps (fun p h' => h p (by simp [h']))
    exact ⟨_, .cons n ⟨s, ms, q⟩ d ps u cs hu hc⟩
end

/-- C70: every type in well-formed tables (all tables, by C69) denotes exactly one C type. -/
theorem C70_denotes (N : Str → Prop) (t : CType) (ht : TypeWf N t) : ∃ u, Denotes t u ∧ ∀ u', Denotes t u' → u' = u := by
  have hd := typeWf_deep ht
  obtain ⟨u, hu⟩ := den_mods t.mods (fun m h => hd _ (.refl _) m h) (fun ps p h1 h2 => hd.param h1 h2) [] (.base t.spec)
  exact ⟨u, hu, fun u' h => C32_denotes_unique t u' u h hu⟩

/-! ### Classes -/

/-- The types a library asks the backend for: variables, results and parameters of functions. -/
inductive Asked (s : Store DefVal) : CType → Prop
  | variable (x : Str) (v : PVal) (t : CType) (h : dget (s.defs .variables) x = some (.var v t)) : Asked s t
  | result (f : Str) (r : CType) (ps : List Param) (qs : List Qual)
      (h : dget (s.defs .functions) f = some (.func (.func r ps qs))) : Asked s r
  | param (f : Str) (r : CType) (ps : List Param) (qs : List Qual) (p : Param)
      (h : dget (s.defs .functions) f = some (.func (.func r ps qs))) (hp : p ∈ ps) : Asked s p.2.1

section
variable {cfg : Cfg} {junk : Str → Str} {types : Dict Str Str} {s : Store DefVal} {ts : List CType}

theorem asked_wf (hs : TablesWf cfg junk s) {t : CType} (h : Asked s t) : TypeWf (TypeName cfg junk s) t := by
  cases h with
  | «variable» x v _ h =>
    obtain ⟨_, _, val, t', e, h1, _⟩ := hs _ _ _ h
    cases e; exact h1
  | result f _ ps qs h =>
    obtain ⟨_, r, ps', qs', e, h1, _⟩ := hs _ _ _ h
    cases e; exact h1
  | param f r ps qs p h hp =>
    obtain ⟨_, r, ps', qs', e, _, h1, _⟩ := hs _ _ _ h
    cases e; exact h1 p hp

/-- C70 (partial: `LibOk`): asked for the `k`-th of the types of variables and functions, for the first time and
in any state the backend can be in, `_get_type` returns a class, and the class mirrors the C type, with
typedef names replaced by what they were declared as. -/
theorem C70_class_partial (hs : TablesWf cfg junk s) (hl : LibOk cfg types s) (k : Nat) (t : CType) (ht : ts[k]? = some t)
    (ha : Asked s t) (hsh : ShapesOk cfg s false t) (hf : FiniteParams ⟨cfg, s.defs, types⟩ t)
    (v : CTy) (hv : CMeaning cfg s t v) (hb : Buildable types (DefinedTag s) v)
    (ks : List Nat) (st : CtState) (hr : CtReach (libEnv cfg types s ts) (libOwn s ts) (libDim s ts) ks st) (hk : k ∉ ks) :
    ∃ t', (lib s ts).2.1[k]? = some t' ∧ ∃ N c st',
      (∀ n, N ≤ n → getType (libEnv cfg types s ts) n st t' = (.ok c, st')) ∧ Mirrors types st'.structs c v := by
  have hw := asked_wf hs ha
  obtain ⟨t', h1, h2⟩ := (numTops_ok .top ts 0 _).2 _ (List.prefix_refl _) k t ht
  have hto : TypeOk (lib s ts).2.2 (.top k) t t' := by have := h2 (typeWf_deep hw).arr; rw [Nat.zero_add] at this; exact this
  refine ⟨t', h1, ?_⟩
  obtain ⟨hbu, hfin⟩ := lib_build (ts := ts) hs hl
  exact C47_built_partial (lib_world hs hl) hbu hfin hr (.top k) t' (typeOk_ty hs hto hw false (by simp) hsh) (.inr ⟨k, hk, rfl⟩)
    (num_finite (e := ⟨cfg, s.defs, types⟩) (e' := libEnv cfg types s ts) rfl (lib_tm hs) hf hto.num) v
    (lib_means hs hto (typeWf_deep hw) hv) (buildable_mono (fun u tag => lib_known hs u tag) hb)

/-- C70: the first state of the backend is one it can be in. -/
theorem C70_start : CtReach (libEnv cfg types s ts) (libOwn s ts) (libDim s ts) [] (ctStart (lib s ts).2.2) :=
  .init _ fun _ => rfl

/-- C70: asking for the `k`-th type leads to a state the backend can be in. -/
theorem C70_next (hs : TablesWf cfg junk s) (k : Nat) (t t' : CType) (ht : ts[k]? = some t)
    (ht' : (lib s ts).2.1[k]? = some t') (ha : Asked s t) (hsh : ShapesOk cfg s false t)
    (ks : List Nat) (st : CtState) (hr : CtReach (libEnv cfg types s ts) (libOwn s ts) (libDim s ts) ks st) (hk : k ∉ ks) (n : Nat) :
    CtReach (libEnv cfg types s ts) (libOwn s ts) (libDim s ts) (k :: ks) (getType (libEnv cfg types s ts) n st t').2 := by
  have hw := asked_wf hs ha
  obtain ⟨t1, h1, h2⟩ := (numTops_ok .top ts 0 _).2 _ (List.prefix_refl _) k t ht
  rw [show (lib s ts).2.1[k]? = some t1 from h1] at ht'
  cases ht'
  have hto : TypeOk (lib s ts).2.2 (.top k) t t' := by have := h2 (typeWf_deep hw).arr; rw [Nat.zero_add] at this; exact this
  exact .top ks st n k t' hr (typeOk_ty hs hto hw false (by simp) hsh) hk

/-- C70 (partial: `LibOk`, and the remarks of C50 on bit widths and generated names): in every state, a
finished Structure or Union class belongs to a struct or union of the header and has its packing; its fields
are the members in order, and their classes mirror the declared C types; the anonymous fields are those of the
members without name. -/
theorem C70_fields_partial (hs : TablesWf cfg junk s) (hl : LibOk cfg types s) (ks : List Nat) (st : CtState)
    (hr : CtReach (libEnv cfg types s ts) (libOwn s ts) (libDim s ts) ks st)
    (tag : Str) (id : Nat) (c : CompCls) (fs : List (Str × Cls × PVal)) (ht : dget st.structs tag = some id)
    (hc : st.classes[id]? = some c) (hf : c.fields = some fs) :
    c.name = tag ∧ ∃ ms, dget (s.defs (compKind c.union)) tag = some (.compound ms c.pack) ∧ fs.length = ms.length ∧
      (∀ n, n ∈ c.anon ↔ ∃ (j : Nat) (m : Member) (f : Str × Cls × PVal), ms[j]? = some m ∧ m.name = none ∧ fs[j]? = some f ∧ f.1 = n) ∧
      ∀ (j : Nat) (m : Member), ms[j]? = some m → ∃ f, fs[j]? = some f ∧ (∀ n, m.name = some n → f.1 = n) ∧
        (m.name = none → ∃ k, f.1 = c%"anon_member" ++ natDigits k) ∧ f.2.2 = m.val ∧
        ∀ v, CMeaning cfg s m.type v → Mirrors types st.structs f.2.1 v := by
  obtain ⟨h1, ms', names, h2, h3, h4, h7, h6, h5⟩ := C50_fields_partial (lib_world hs hl) hr tag id c fs ht hc hf
  refine ⟨h1, ?_⟩
  rcases lib_comps (ts := ts) hs c.union tag with ⟨_, e⟩ | ⟨ms, ms1, pack, e1, e2, e3, e4⟩
  · rw [show dget ((libEnv cfg types s ts).defs (compKind c.union)) tag = none from e] at h2; cases h2
  · rw [show dget ((libEnv cfg types s ts).defs (compKind c.union)) tag = some _ from e2] at h2; cases h2
    have hlen : fs.length = ms'.length := by
      have := congrArg List.length h4
      rw [List.length_map] at this
      rw [this, h3.1]
    refine ⟨ms, e1, by rw [hlen, e3], fun n => ?_, fun j m hm => ?_⟩
    · rw [h6]
      constructor
      · rintro ⟨j, m', q1, q2, q3⟩
        have hj : j < ms.length := by rw [← e3]; exact (List.getElem?_eq_some_iff.1 q1).1
        obtain ⟨t', r1, _⟩ := e4 j ms[j] (List.getElem?_eq_getElem hj)
        rw [r1] at q1
        cases q1
        rw [← h4, List.getElem?_map, Option.map_eq_some_iff] at q3
        obtain ⟨f, f1, f2⟩ := q3
        exact ⟨j, _, f, List.getElem?_eq_getElem hj, q2, f1, f2⟩
      · rintro ⟨j, m, f, q1, q2, q3, q4⟩
        obtain ⟨t', r1, _⟩ := e4 j m q1
        exact ⟨j, _, r1, q2, by rw [← h4, List.getElem?_map, q3, ← q4]; rfl⟩
    · obtain ⟨t', q1, q2⟩ := e4 j m hm
      obtain ⟨f, f1, f2⟩ := h5 j _ q1
      have hd := (memberWf_deep (comp_members hs e1 (List.mem_of_getElem? hm))).1
      have hname := h3.2 j _ q1
      have : names[j]? = some f.1 := by rw [← h4, List.getElem?_map, f1]; rfl
      rw [this] at hname
      have hval := congrArg (fun l => l[j]?) h7
      simp only [List.getElem?_map, f1, q1, Option.map_some, Option.some.injEq] at hval
      refine ⟨f, f1, fun n hn => ?_, fun hn => ?_, hval, fun v hv => f2 v (lib_means hs (q2 hd.arr) hd hv)⟩
      · simpa [hn] using hname
      · obtain ⟨k, hk, _⟩ := hname.2 hn
        exact ⟨k, by simpa using hk⟩

theorem name_shapes (hs : TablesWf cfg junk s) (hl : LibOk cfg types s) (n : Str) : ShapesOk cfg s true ⟨n, [], [some []]⟩ := by
  refine ⟨fun b hr => ?_, by simp⟩
  cases hr with
  | base hf => exact ⟨trivial, fun _ => by simp [NoAdj], fun pre h => by simp at h; simp [h, NoAdj]⟩
  | step hf hd hsp hr =>
    rename_i pt t'
    have hn : dget (s.defs .types) n = some (.type pt) := by
      cases he : dget (s.defs .types) n with
      | none => rw [(typeTable_get _ _).2 he] at hd; cases hd
      | some v =>
        obtain ⟨t0, rfl⟩ := C69_types cfg junk s hs n v he
        rw [(typeTable_get _ _).1 _ he] at hd; cases hd; rfl
    obtain ⟨qs, a, b', rest, h1, h2, rfl⟩ := hsp
    simp only [List.cons.injEq, Option.some.injEq, List.nil_eq] at h2
    obtain ⟨rfl, rfl⟩ := h2
    have hpt : (⟨pt.spec, pt.mods ++ [], qs ++ some (a ++ []) :: []⟩ : CType) = pt := by
      cases pt; simp at h1 ⊢; exact h1.symm
    rcases types_cases hs hn with ⟨hi, _⟩ | ⟨w, tag, hw, rfl, rfl⟩
    · obtain ⟨h3, h4, h5⟩ := (hl.typedefs n pt hi hn).1.1 b (by rw [← hpt]; simpa using hr)
      exact ⟨h3, h4, fun pre hp => by simp at hp; simpa [← hp] using h4 rfl⟩
    · refine absurd ?_ hf
      simp only [List.mem_cons, List.not_mem_nil, or_false] at hw
      rcases hw with rfl | rfl | rfl
      · exact .inl ⟨tag, rfl⟩
      · exact .inr (.inl ⟨tag, rfl⟩)
      · exact .inr (.inr (.inl ⟨tag, rfl⟩))

/-- C70 (partial: `LibOk`): asked for the name of a typedef, `_get_type` returns a class that mirrors the
declared C type. -/
theorem C70_typedef_partial (hs : TablesWf cfg junk s) (hl : LibOk cfg types s) (n : Str) (hn : TypeName cfg junk s n)
    (hf : FiniteParams ⟨cfg, s.defs, types⟩ ⟨n, [], [some []]⟩)
    (v : CTy) (k : Nat) (hv : Expand cfg (TypedefOf s) k (.base n) v) (hb : Buildable types (DefinedTag s) v)
    (ks : List Nat) (st : CtState) (hr : CtReach (libEnv cfg types s ts) (libOwn s ts) (libDim s ts) ks st) :
    ∃ N c st', (∀ i, N ≤ i → getType (libEnv cfg types s ts) i st ⟨n, [], [some []]⟩ = (.ok c, st')) ∧
      Mirrors types st'.structs c v := by
  have hw : TypeWf (TypeName cfg junk s) ⟨n, [], [some []]⟩ := by
    intro u hu
    cases hu with
    | refl => exact ⟨hn, rfl, by simp, by simp⟩
    | param _ _ ps p h1 _ _ => simp at h1
  have hto : TypeOk (lib s ts).2.2 .shared ⟨n, [], [some []]⟩ ⟨n, [], [some []]⟩ :=
    ⟨⟨rfl, rfl, .nil⟩, by simp [idsOf], by simp [idsOf], by simp⟩
  obtain ⟨hbu, hfin⟩ := lib_build (ts := ts) hs hl
  exact C47_built_partial (lib_world hs hl) hbu hfin hr .shared _ (typeOk_ty hs hto hw true (by simp) (name_shapes hs hl n)) (.inl rfl)
    (num_finite (e := ⟨cfg, s.defs, types⟩) (e' := libEnv cfg types s ts) rfl (lib_tm hs) hf hto.num) v
    (lib_means hs hto (typeWf_deep hw) ⟨_, k, .nil _, hv⟩) (buildable_mono (fun u tag => lib_known hs u tag) hb)

end

/-- C70 (partial: as `C70_class_partial`), for a list of header files processed from empty tables. -/
theorem C70_files_partial (w : Setup) (he : ExtraWords w.cfg) (fs : List (Str × Str)) (s : Store DefVal)
    (h : processFiles w Store.empty fs = .ok s) (types : Dict Str Str) (hl : LibOk w.cfg types s) (ts : List CType)
    (k : Nat) (t : CType) (ht : ts[k]? = some t) (ha : Asked s t) (hsh : ShapesOk w.cfg s false t)
    (hf : FiniteParams ⟨w.cfg, s.defs, types⟩ t) (v : CTy) (hv : CMeaning w.cfg s t v) (hb : Buildable types (DefinedTag s) v)
    (ks : List Nat) (st : CtState) (hr : CtReach (libEnv w.cfg types s ts) (libOwn s ts) (libDim s ts) ks st) (hk : k ∉ ks) :
    ∃ t', (lib s ts).2.1[k]? = some t' ∧ ∃ N c st',
      (∀ n, N ≤ n → getType (libEnv w.cfg types s ts) n st t' = (.ok c, st')) ∧ Mirrors types st'.structs c v :=
  C70_class_partial (C69_files w he fs _ s (C69_empty _ _) h) hl k t ht ha hsh hf v hv hb ks st hr hk

/-- C70 with C61 (partial: `LibOk`, the declarators of C61): the class of a variable mirrors the C type that
the declaration in the text gives to the name.  The declaration is the last of a header. -/
theorem C70_declaration_partial {g : Gram} (hg : gramOk g = true) (he : ExtraWords g.cfg) {tail text : Str} {s s0 s1 s2 : St}
    (hs : TablesWf g.cfg g.junk s) {pre st t d i : List Tk} {semi : Tk} {tq : List Str} {tn : Str} {dc : Decl} {ini : Init}
    (hpre : CHeader g s pre s0) (hst : Storage st) (ht : CSpec g s0 t s1 (tq, tn)) (hd : CDecls g s1 d s2 [dc])
    (hi : CInit g i ini) (hsemi : semi.w = c%";") (hj : Joins g t d)
    (hl : Lay ⟨tail, g.pack⟩ ' ' text (pre ++ (st ++ (t ++ (d ++ (i ++ [semi])))))) (hlk : LinkOk pre (st ++ (t ++ (d ++ (i ++ [semi])))))
    (hw : tail.all isWhite = true) (hok : dc.Ok) (hfn : declaresFn tn dc = false) :
    ∃ s' ty, parseDefs g s text = (s', none) ∧
      dget (s'.defs .variables) (nameOr dc.name) = some (.var (initVal (evIn g.ev s2) ini) ty) ∧
      ∀ (types : Dict Str Str) (ts : List CType) (k : Nat), LibOk g.cfg types s' → ts[k]? = some ty →
        ShapesOk g.cfg s' false ty → FiniteParams ⟨g.cfg, s'.defs, types⟩ ty →
        ∀ v, (∃ k, Expand g.cfg (TypedefOf s') k (dc.cty (fun x => (evIn g.ev s2 x).dim) (.base tn)) v) →
          Buildable types (DefinedTag s') v →
          ∀ ks st, CtReach (libEnv g.cfg types s' ts) (libOwn s' ts) (libDim s' ts) ks st → k ∉ ks →
            ∃ t', (lib s' ts).2.1[k]? = some t' ∧ ∃ N c st',
              (∀ n, N ≤ n → getType (libEnv g.cfg types s' ts) n st t' = (.ok c, st')) ∧ Mirrors types st'.structs c v := by
  obtain ⟨s', h1, s3, ⟨ty, h2, h3, h4⟩, h5⟩ := C61_declaration_partial hg hpre hst ht hd hi hsemi hj hl hlk hw
    (ds := [dc]) (by simpa using hok)
  cases h5
  rw [hfn] at h4
  have h6 : dget (s'.defs .variables) (nameOr dc.name) = some (.var (initVal (evIn g.ev s2) ini) ty) := by
    have := h4 .variables (nameOr dc.name)
    simpa using this
  have hs' : TablesWf g.cfg g.junk s' := by
    have := (C69_parse g he s hs text).1
    rw [h1] at this; exact this
  refine ⟨s', ty, h1, h6, fun types ts k hl hk hsh hf v ⟨j, hv⟩ hb ks st hr hn => ?_⟩
  exact C70_class_partial hs' hl k ty hk (.variable _ _ _ h6) hsh hf v ⟨_, j, h3, hv⟩ hb ks st hr hn

/-! ### Example: from text to classes -/

def clText : Str := c%"typedef double vec[3];\ntypedef int (*cb_t)(struct node *, char *);\nstruct node { int grid[2][3]; struct node *next; cb_t cb; vec v; };\nstruct node *table[7];\nint visit(struct node *first, cb_t cb, char **msg, unsigned n);\nvoid stop(void);"

/-- The definitions of `clText`. -/
def clStore : Store DefVal := match processFiles exSetup Store.empty [(c%"t.h", clText)] with
  | .ok s => s
  | .error _ => Store.empty

def clArr (n : Int) : CMod := .arr [some n]

theorem clTypes : clStore.defs .types = [(c%"vec", .type (ctTy c%"double" [clArr 3])),
    (c%"struct node", .type (ctTy c%"struct" [.sym c%"node"])),
    (c%"cb_t", .type (ctTy c%"int" [.fn [(none, ctTy c%"struct node" [ctPtr], none), (none, ctTy c%"char" [ctPtr], none)], ctPtr]))] :=
  eqTable_ok (by decide +kernel)

theorem clStructs : clStore.defs .structs = [(c%"node", .compound [⟨some c%"grid", ctTy c%"int" [clArr 2, clArr 3], .none, none⟩,
      ⟨some c%"next", ctTy c%"struct node" [ctPtr], .none, none⟩, ⟨some c%"cb", ctTy c%"cb_t" [], .none, none⟩,
      ⟨some c%"v", ctTy c%"vec" [], .none, none⟩] none)] :=
  eqTable_ok (by decide +kernel)

theorem clUnions : clStore.defs .unions = [] := eqTable_ok (by decide +kernel)

theorem clVariables : clStore.defs .variables = [(c%"table", .var .none (ctTy c%"struct node" [ctPtr, clArr 7]))] :=
  eqTable_ok (by decide +kernel)

theorem clFunctions : clStore.defs .functions = [(c%"visit", .func (.func (ctTy c%"int" []) [(some c%"first", ctTy c%"struct node" [ctPtr], none),
      (some c%"cb", ctTy c%"cb_t" [], none), (some c%"msg", ctTy c%"char" [ctPtr, ctPtr], none), (some c%"n", ctTy c%"unsigned" [], none)]
      [some [], some []])),
    (c%"stop", .func (.func (ctTy c%"void" []) [(none, ctTy c%"void" [], none)] [some [], some []]))] :=
  eqTable_ok (by decide +kernel)

theorem clFiles : processFiles exSetup Store.empty [(c%"t.h", clText)] = .ok clStore := by
  have : (processFiles exSetup Store.empty [(c%"t.h", clText)]).isOk = true := by decide +kernel
  unfold clStore
  cases h : processFiles exSetup Store.empty [(c%"t.h", clText)] with
  | ok s => rfl
  | error e => rw [h] at this; cases this

attribute [local irreducible] clStore

/-- A check for `ShapeOk`. -/
def shapeB (cfg : Cfg) (tm : Dict Str CType) (shared : Bool) (t : CType) : Bool :=
  t.quals.length == 1 + t.mods.length &&
  match evalType cfg tm t with
  | .error _ => true
  | .ok r => fnPtrsB cfg.win32 r.mods && (!shared || noAdjB r.mods) &&
      noAdjB (r.mods.take (r.mods.length - t.mods.length) ++ t.mods.take 1)

theorem shapeB_ok {cfg : Cfg} {s : Store DefVal} (hm : MapMatch (typeTable (s.defs .types))) {shared : Bool} {t : CType}
    (h : shapeB cfg (typeTable (s.defs .types)) shared t = true) : ShapeOk cfg s shared t := by
  simp only [shapeB, Bool.and_eq_true, beq_iff_eq] at h
  obtain ⟨h1, h6⟩ := h
  intro b hb
  rw [(C01_result _ _ _ _ hm h1).2 ⟨b, hb, rfl⟩] at h6
  simp only [Bool.and_eq_true, Bool.or_eq_true, Bool.not_eq_true'] at h6
  refine ⟨fnPtrsB_ok _ _ h6.1.1, fun ho => noAdjB_ok _ (h6.1.2.resolve_left (by simp [ho])), fun pre hp => ?_⟩
  have : pre = b.mods.take (b.mods.length - t.mods.length) := by rw [hp]; simp
  rw [this]
  exact noAdjB_ok _ h6.2

def clEnv : CtEnv := ⟨exSetup.cfg, clStore.defs, ctypesTable⟩

theorem clTm : clEnv.tm = typeTable (clStore.defs .types) := rfl

theorem clMap : MapMatch clEnv.tm := by
  intro s pt h
  rw [clTm, clTypes] at h
  have := dget_some_mem h
  simp [typeTable] at this
  rcases this with ⟨_, rfl⟩ | ⟨_, rfl⟩ | ⟨_, rfl⟩ <;> rfl

theorem clShape {shared : Bool} {t : CType} (h : shapeB exSetup.cfg (typeTable [(c%"vec", .type (ctTy c%"double" [clArr 3])),
    (c%"struct node", .type (ctTy c%"struct" [.sym c%"node"])),
    (c%"cb_t", .type (ctTy c%"int" [.fn [(none, ctTy c%"struct node" [ctPtr], none), (none, ctTy c%"char" [ctPtr], none)], ctPtr]))]) shared t = true) :
    ShapeOk exSetup.cfg clStore shared t :=
  shapeB_ok clMap (by rw [clTypes]; exact h)

theorem clNode : Buildable ctypesTable (DefinedTag clStore) (.base c%"struct node") :=
  .struct c%"node" (by unfold DefinedTag; rw [show clStore.defs (compKind false) = clStore.defs .structs from rfl, clStructs]; rfl)

theorem clExpand {k : Nat} {n : Str} {t : CType} {u v : CTy} (hf : isFund exSetup.cfg n = false)
    (hn : dget (clStore.defs .types) n = some (.type t)) (ht : Denotes t u) (h : Expand exSetup.cfg (TypedefOf clStore) k u v) :
    Expand exSetup.cfg (TypedefOf clStore) (k + 1) (.base n) v :=
  .name k n u v (by rw [← isFund_iff]; simp [hf]) ⟨t, hn, ht⟩ h

theorem clFund {k : Nat} {n m : Str} (hf : isFund exSetup.cfg n = true) (hm : m = dropSigned n) :
    Expand exSetup.cfg (TypedefOf clStore) k (.base n) (.base m) := by rw [hm]; exact .fund k n ((isFund_iff _ _).1 hf)

theorem clFinite {t r : CType} (hq : QualsMatch t) (hev : evalType exSetup.cfg (typeTable [(c%"vec", .type (ctTy c%"double" [clArr 3])),
    (c%"struct node", .type (ctTy c%"struct" [.sym c%"node"])),
    (c%"cb_t", .type (ctTy c%"int" [.fn [(none, ctTy c%"struct node" [ctPtr], none), (none, ctTy c%"char" [ctPtr], none)], ctPtr]))]) t = .ok r)
    (hf : ∀ ps, .fn ps ∉ r.mods) : FiniteParams clEnv t :=
  finite_noFn clMap hq (by rw [clTm, clTypes]; exact hev) hf

theorem clLib : LibOk exSetup.cfg ctypesTable clStore := by
  refine ⟨fun w hw => ?_, fun u tag => ?_, fun n t hn h => ?_, fun u tag ms pack m h hm => ?_⟩
  · rw [fundWord_words]
    revert w; decide
  · cases hd : dget ctypesTable (compWord u ++ ' ' :: tag) with
    | none => rfl
    | some p =>
      have := dget_some_mem hd
      cases u <;> simp [ctypesTable, compWord] at this
  · rw [clTypes] at h
    have := dget_some_mem h
    simp at this
    rcases this with ⟨rfl, rfl⟩ | ⟨rfl, rfl⟩ | ⟨rfl, rfl⟩
    · exact ⟨⟨clShape rfl, by simp [ctTy, clArr]⟩, by decide⟩
    · exact ⟨⟨clShape rfl, by simp [ctTy]⟩, by decide⟩
    · refine ⟨⟨clShape rfl, fun ps p u hf hp hi => ?_⟩, by decide⟩
      simp [ctTy, ctPtr] at hf
      subst hf
      simp at hp
      rcases hp with rfl | rfl <;> (rw [inside_noFn hi (by simp)]; exact clShape rfl)
  · cases u with
    | true => rw [show clStore.defs (compKind true) = clStore.defs .unions from rfl, clUnions] at h; cases h
    | false =>
      rw [show clStore.defs (compKind false) = clStore.defs .structs from rfl, clStructs] at h
      have := dget_some_mem h
      simp at this
      obtain ⟨rfl, rfl, rfl⟩ := this
      have hne : ∀ (n : Str) (k : Nat) (n' : Str), n'.take 1 ≠ ['a'] → some n' = some n → n ≠ c%"anon_member" ++ natDigits k := by
        intro n k n' h1 h2 h3
        cases h2; subst h3
        exact h1 rfl
      simp only [List.mem_cons, List.not_mem_nil, or_false] at hm
      rcases hm with rfl | rfl | rfl | rfl
      · refine ⟨⟨clShape rfl, by simp [ctTy, clArr]⟩,
          clFinite rfl (r := ctTy c%"int" [clArr 2, clArr 3]) rfl (by simp [ctTy, clArr]),
          .arr (some 2) (.arr (some 3) (.base c%"int")), ⟨_, 0, .arrs _ [_] _ [] _ (by simp) (.nil _), ?_⟩,
          .arr _ _ (by decide) (by simp) (.arr _ _ (by decide) (by simp) (.prim _ _ (by rfl))), by simp, by simp,
          fun n k h => hne n k _ (by simp) h⟩
        exact .arr _ _ _ _ (.arr _ _ _ _ (clFund (by rfl) rfl))
      · refine ⟨⟨clShape rfl, by simp [ctTy, ctPtr]⟩,
          clFinite rfl (r := ctTy c%"struct node" [ctPtr]) rfl (by simp [ctTy, ctPtr]),
          .ptr (.base c%"struct node"), ⟨_, 0, .ptr _ _ _ (.nil _), .ptr _ _ _ (clFund (by rfl) rfl)⟩,
          .ptr _ clNode, by simp, by simp, fun n k h => hne n k _ (by simp) h⟩
      · refine ⟨⟨clShape rfl, by simp [ctTy]⟩, ?_,
          .ptr (.fn [(none, .ptr (.base c%"struct node")), (none, .ptr (.base c%"char"))] (.base c%"int")),
          ⟨_, 1, .nil _, clExpand (t := ctTy c%"int" [.fn [(none, ctTy c%"struct node" [ctPtr], none), (none, ctTy c%"char" [ctPtr], none)], ctPtr]) (u := .ptr (.fn [(none, .ptr (.base c%"struct node")), (none, .ptr (.base c%"char"))] (.base c%"int")))
            (by rfl) (by rw [clTypes]; rfl) (.fn _ _ _ _ _ (.cons _ _ _ _ _ _ (.ptr _ _ _ (.nil _)) (.cons _ _ _ _ _ _ (.ptr _ _ _ (.nil _)) .nil)) (.ptr _ _ _ (.nil _)))
            (.ptr _ _ _ (.fn _ _ _ _ _ (.cons _ _ _ _ _ _ (.ptr _ _ _ (clFund (by rfl) rfl))
              (.cons _ _ _ _ _ _ (.ptr _ _ _ (clFund (by rfl) rfl)) (.nil _))) (clFund (by rfl) rfl)))⟩,
          .fnptr _ _ (.prim _ _ (by rfl)) (by simp) ?_, by simp, by simp, fun n k h => hne n k _ (by simp) h⟩
        · refine .mk _ rfl (fun b ps p hb hp hps => ?_)
          have h1 := (C01_result _ _ _ _ clMap (by rfl)).2 ⟨b, hb, rfl⟩
          rw [clTm, clTypes] at h1
          have h3 := h1.symm.trans (show _ = .ok (ctTy c%"int" [.fn [(none, ctTy c%"struct node" [ctPtr], none), (none, ctTy c%"char" [ctPtr], none)], ctPtr]) from rfl)
          simp only [Except.ok.injEq, ctTy, TypeF.mk.injEq] at h3
          rw [h3.2.1] at hp
          simp [ctPtr] at hp
          subst hp
          simp only [List.mem_cons, List.not_mem_nil, or_false] at hps
          rcases hps with rfl | rfl
          · exact clFinite rfl (r := ctTy c%"struct node" [ctPtr]) rfl (by simp [ctTy, ctPtr])
          · exact clFinite rfl (r := ctTy c%"char" [ctPtr]) rfl (by simp [ctTy, ctPtr])
        · simp only [List.mem_cons, List.not_mem_nil, or_false]
          rintro x (rfl | rfl)
          · exact .ptr _ clNode
          · exact .ptr _ (.prim _ _ (by rfl))
      · exact ⟨⟨clShape rfl, by simp [ctTy]⟩, clFinite rfl (r := ctTy c%"double" [clArr 3]) rfl (by simp [ctTy, clArr]),
          .arr (some 3) (.base c%"double"), ⟨_, 1, .nil _, clExpand (t := ctTy c%"double" [clArr 3]) (u := .arr (some 3) (.base c%"double"))
            (by rfl) (by rw [clTypes]; rfl) (.arrs _ [] _ [] _ (by simp) (.nil _)) (.arr _ _ _ _ (clFund (by rfl) rfl))⟩,
          .arr _ _ (by decide) (by simp) (.prim _ _ (by rfl)), by simp, by simp, fun n k h => hne n k _ (by simp) h⟩

/-- C70 on a header text: the class of `table` is found and mirrors `struct node *[7]`. -/
theorem C70_example : processFiles exSetup Store.empty [(c%"t.h", clText)] = .ok clStore ∧
    LibOk exSetup.cfg ctypesTable clStore ∧
    ∃ t', (lib clStore [ctTy c%"struct node" [ctPtr, clArr 7]]).2.1[0]? = some t' ∧ ∃ N c st',
      (∀ n, N ≤ n → getType (libEnv exSetup.cfg ctypesTable clStore [ctTy c%"struct node" [ctPtr, clArr 7]]) n
        (ctStart (lib clStore [ctTy c%"struct node" [ctPtr, clArr 7]]).2.2) t' = (.ok c, st')) ∧
      Mirrors ctypesTable st'.structs c (.arr (some 7) (.ptr (.base c%"struct node"))) := by
  refine ⟨clFiles, clLib, ?_⟩
  exact C70_files_partial exSetup (by simp [ExtraWords, exSetup]) _ _ clFiles ctypesTable clLib [ctTy c%"struct node" [ctPtr, clArr 7]] 0
    (ctTy c%"struct node" [ctPtr, clArr 7]) rfl
    (.variable c%"table" .none _ (by rw [clVariables]; rfl)) ⟨clShape rfl, by simp [ctTy, ctPtr, clArr]⟩
    (clFinite rfl (r := ctTy c%"struct node" [ctPtr, clArr 7]) rfl (by simp [ctTy, ctPtr, clArr])) _
    ⟨_, 0, .ptr _ _ _ (.arrs _ [] _ [] _ (by simp) (.nil _)), .arr _ _ _ _ (.ptr _ _ _ (clFund (by rfl) rfl))⟩
    (.arr _ _ (by decide) (by simp) (.ptr _ clNode)) [] _ C70_start (by simp)

end Pyclib
