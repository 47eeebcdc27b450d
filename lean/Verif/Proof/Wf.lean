import Verif.Spec.Tables
import Verif.Proof.Decl
import Verif.Proof.Store
import Verif.Proof.File
/-! The definition tables stay well-formed, whatever is parsed: processing of declarations. -/
namespace Pyclib
open Spec

/-! ### Types -/

/-- Well-formed modifiers, with well-formed parameter types. -/
def ModsWf (N : Str → Prop) (ms : List CMod) : Prop :=
  ∀ m ∈ ms, ModWf m ∧ ∀ ps, m = .fn ps → ∀ p ∈ ps, TypeWf N p.2.1

theorem ModsWf.append {N : Str → Prop} {a b : List CMod} (ha : ModsWf N a) (hb : ModsWf N b) : ModsWf N (a ++ b) := by
  intro m hm
  rcases List.mem_append.1 hm with h | h
  · exact ha m h
  · exact hb m h

theorem typeWf_mk {N : Str → Prop} {t : CType} (h : LevelWf N t) (hm : ModsWf N t.mods) : TypeWf N t := by
  intro u hu
  cases hu with
  | refl => exact h
  | param _ _ ps p hf hp hi => exact (hm _ hf).2 ps rfl p hp u hi

theorem typeWf_mods {N : Str → Prop} {t : CType} (h : TypeWf N t) : ModsWf N t.mods := by
  intro m hm
  refine ⟨(h t (.refl t)).mods m hm, ?_⟩
  rintro ps rfl p hp u hu
  exact h u (.param t u ps p hm hp hu)

theorem levelWf_mono {N N' : Str → Prop} (hN : ∀ n, N n → N' n) {t : CType} (h : LevelWf N t) : LevelWf N' t :=
  ⟨hN _ h.name, h.quals, h.base, h.mods⟩

theorem typeWf_mono {N N' : Str → Prop} (hN : ∀ n, N n → N' n) {t : CType} (h : TypeWf N t) : TypeWf N' t :=
  fun u hu => levelWf_mono hN (h u hu)

mutual
/-- What the grammar makes: names are identifiers, calling conventions are real ones, type names satisfy
`N`. -/
def Decl.Made (cfg : Cfg) (N : Str → Prop) : Decl → Prop
  | .mk _ conv _ _ core _ args _ =>
    (∀ c, conv = some c → c = c%"__cdecl" ∨ c = c%"__stdcall") ∧ core.Made cfg N ∧ args.Made cfg N
/-- The same for the core. -/
def Core.Made (cfg : Cfg) (N : Str → Prop) : Core → Prop
  | .name n => IsName cfg n
  | .abs => True
  | .center d => d.Made cfg N
/-- The same for the parameters. -/
def ArgList.Made (cfg : Cfg) (N : Str → Prop) : ArgList → Prop
  | .nil => True
  | .cons _ tn d _ rest => N tn ∧ d.Made cfg N ∧ rest.Made cfg N
end

mutual
theorem Decl.Made.mono {cfg : Cfg} {N N' : Str → Prop} (hN : ∀ n, N n → N' n) : (d : Decl) → d.Made cfg N → d.Made cfg N'
  | .mk _ _ _ _ core _ args _, h => ⟨h.1, core.made_mono hN h.2.1, args.made_mono hN h.2.2⟩
theorem Core.made_mono {cfg : Cfg} {N N' : Str → Prop} (hN : ∀ n, N n → N' n) : (d : Core) → d.Made cfg N → d.Made cfg N'
  | .name _, h => h
  | .abs, _ => trivial
  | .center d, h => Decl.Made.mono hN d h
theorem ArgList.made_mono {cfg : Cfg} {N N' : Str → Prop} (hN : ∀ n, N n → N' n) :
    (d : ArgList) → d.Made cfg N → d.Made cfg N'
  | .nil, _ => trivial
  | .cons _ _ d _ rest, h => ⟨hN _ h.1, Decl.Made.mono hN d h.2.1, rest.made_mono hN h.2.2⟩
end

theorem levelToks_wf {N : Str → Prop} (ev : Str → PVal) {conv : Option Str} (ptrs : List (List Str)) (arrays : List Str)
    (hc : ∀ c, conv = some c → c = c%"__cdecl" ∨ c = c%"__stdcall") : ModsWf N (levelToks ev conv ptrs arrays) := by
  intro m hm
  simp only [levelToks, List.mem_append, List.mem_map] at hm
  rcases hm with (h | ⟨_, _, rfl⟩) | ⟨x, _, rfl⟩
  · cases conv with
    | none => cases h
    | some c =>
      simp at h; subst h
      refine ⟨?_, by simp⟩
      rcases hc c rfl with h | h <;> simp [ModWf, h]
  · exact ⟨.inl rfl, by simp⟩
  · exact ⟨⟨_, rfl⟩, by simp⟩

theorem ref_wf {N : Str → Prop} (ref : Bool) : ModsWf N (if ref then [.sym c%"&"] else []) := by
  intro m hm
  cases ref with
  | false => cases hm
  | true => simp at hm; subst hm; exact ⟨.inr (.inl rfl), by simp⟩

theorem typeOf_wf {N : Str → Prop} {tq : List Str} {tn : Str} {toks : List CMod} {q : List Str} {r : List Qual}
    (hn : N tn) (hl : (some q :: r).length = 1 + toks.length) (hm : ModsWf N toks) :
    TypeWf N ⟨tn, toks, some (tq ++ q) :: r⟩ :=
  typeWf_mk ⟨hn, by simpa [QualsMatch] using hl, by simp, fun m h => (hm m h).1⟩ hm

mutual
theorem procDecl_wf {cfg : Cfg} {N : Str → Prop} (ev : Str → PVal) : (d : Decl) → d.Made cfg N →
    ∀ {n toks quals}, procDecl ev d = .ok (n, toks, quals) → ModsWf N toks
  | .mk first conv ptrs ref core hasArgs args arrays, h, n, toks, quals, he => by
    obtain ⟨h1, h2, h3⟩ := h
    have hl : ModsWf N (levelToks ev conv ptrs arrays) := levelToks_wf ev ptrs arrays h1
    simp only [procDecl] at he
    split at he
    · split at he
      · cases he
      · exact procCore_wf ev ref core h2 hl he
    · rename_i ps hp
      refine procCore_wf ev ref core h2 (hl.append ?_) he
      cases hasArgs with
      | false => intro m hm; cases hm
      | true =>
        intro m hm
        simp at hm; subst hm
        exact ⟨trivial, fun ps' e p hp' => by cases e; exact procArgs_wf ev args h3 hp p hp'⟩
theorem procCore_wf {cfg : Cfg} {N : Str → Prop} (ev : Str → PVal) (ref : Bool) : (d : Core) → d.Made cfg N →
    ∀ {toks quals n toks' quals'}, ModsWf N toks → procCore ev ref d toks quals = .ok (n, toks', quals') → ModsWf N toks'
  | .name _, _, toks, quals, n, toks', quals', ht, he => by
    cases he; exact ht.append (ref_wf ref)
  | .abs, _, toks, quals, n, toks', quals', ht, he => by
    cases he; exact ht.append (ref_wf ref)
  | .center d, h, toks, quals, n, toks', quals', ht, he => by
    simp only [procCore] at he
    split at he
    · cases he
    · rename_i hd
      split at he
      · cases he
      · cases he
        exact (ht.append (ref_wf ref)).append (procDecl_wf ev d h hd)
theorem procArgs_wf {cfg : Cfg} {N : Str → Prop} (ev : Str → PVal) : (a : ArgList) → a.Made cfg N →
    ∀ {ps}, procArgs ev a = .ok ps → ∀ p ∈ ps, TypeWf N p.2.1
  | .nil, _, ps, he => by cases he; simp
  | .cons tq tn d val rest, h, ps, he => by
    simp only [procArgs] at he
    split at he
    · cases he
    · rename_i n toks quals hd
      obtain ⟨_, hl, ⟨q, r, rfl⟩, _⟩ := (procDecl_spec ev d).2 _ _ _ hd
      rw [typeOf_ok tq tn toks q r hl] at he
      dsimp only at he
      split at he
      · cases he
      · rename_i ps' hr
        cases he
        intro p hp
        rcases List.mem_cons.1 hp with rfl | hp
        · exact typeOf_wf h.1 hl (procDecl_wf ev d h.2.1 hd)
        · exact procArgs_wf ev rest h.2.2 hr p hp
end

theorem procType_wf {cfg : Cfg} {N : Str → Prop} {ev : Str → PVal} {tq : List Str} {tn : Str} {d : Decl} (hn : N tn)
    (hd : d.Made cfg N) {n : Option Str} {t : CType} (h : procType ev tq tn d = .ok (n, t)) : n = d.name ∧ TypeWf N t := by
  simp only [procType] at h
  split at h
  · cases h
  · rename_i n' toks quals he
    obtain ⟨h1, hl, ⟨q, r, rfl⟩, _⟩ := (procDecl_spec ev d).2 _ _ _ he
    rw [typeOf_ok tq tn toks q r hl] at h
    cases h
    exact ⟨h1, typeOf_wf hn hl (procDecl_wf ev d hd he)⟩

mutual
theorem made_name {cfg : Cfg} {N : Str → Prop} : (d : Decl) → d.Made cfg N → ∀ {n}, d.name = some n → IsName cfg n
  | .mk _ _ _ _ core _ _ _, h, _, e => core.made_name h.2.1 e
theorem Core.made_name {cfg : Cfg} {N : Str → Prop} : (d : Core) → d.Made cfg N → ∀ {n}, d.dname = some n → IsName cfg n
  | .name m, h, _, e => by cases e; exact h
  | .abs, _, _, e => by cases e
  | .center d, h, _, e => Pyclib.made_name d h e
end

/-! ### Tables -/

section
variable {cfg : Cfg} {junk : Str → Str} {s s' : Store DefVal}

/-- Nothing but macros is removed, and entries of tags stay. -/
structure Grows (s s' : Store DefVal) : Prop where
  has : ∀ k n, k ≠ .macros → dhas (s.defs k) n = true → dhas (s'.defs k) n = true
  comp : ∀ u tag, TagEntry s (compWord u) tag → TagEntry s' (compWord u) tag
  enum : ∀ tag, TagEntry s c%"enum" tag → TagEntry s' c%"enum" tag

theorem Grows.refl (s : Store DefVal) : Grows s s := ⟨fun _ _ _ h => h, fun _ _ h => h, fun _ h => h⟩

theorem Grows.trans {a b c : Store DefVal} (h : Grows a b) (h' : Grows b c) : Grows a c :=
  ⟨fun k n hk hh => h'.has k n hk (h.has k n hk hh), fun u t hh => h'.comp u t (h.comp u t hh),
    fun t hh => h'.enum t (h.enum t hh)⟩

theorem Grows.name (h : Grows s s') {n : Str} (hn : TypeName cfg junk s n) : TypeName cfg junk s' n := by
  cases hn with
  | fund ws h1 h2 => exact .fund ws h1 h2
  | ident _ h => exact .ident _ h
  | comp u tag hh => exact .comp u tag (h.has _ _ (by cases u <;> decide) hh)
  | enum tag hh => exact .enum tag (h.has _ _ (by decide) hh)
  | failed r => exact .failed r

theorem Grows.type (h : Grows s s') {t : CType} (ht : TypeWf (TypeName cfg junk s) t) : TypeWf (TypeName cfg junk s') t :=
  typeWf_mono (fun _ => h.name) ht

theorem Grows.compound (h : Grows s s') {u : Bool} {tag : Str} {v : DefVal} (hv : CompoundWf cfg junk s u tag v) :
    CompoundWf cfg junk s' u tag v := by
  obtain ⟨h1, ms, pack, rfl, h2⟩ := hv
  refine ⟨h.comp u tag h1, ms, pack, rfl, fun m hm => ?_⟩
  rcases h2 m hm with ⟨n, h3, h4, h5⟩ | h3
  · exact .inl ⟨n, h3, h4, h.type h5⟩
  · exact .inr h3

theorem Grows.entry (h : Grows s s') {k : Kind} {n : Str} {v : DefVal} (hv : EntryWf cfg junk s k n v) :
    EntryWf cfg junk s' k n v := by
  cases k with
  | types =>
    rcases hv with ⟨h1, t, h2, h3⟩ | ⟨u, tag, h1, h2⟩ | ⟨tag, h1, h2⟩
    · exact .inl ⟨h1, t, h2, h.type h3⟩
    · exact .inr (.inl ⟨u, tag, h1, h.has _ _ (by cases u <;> decide) h2⟩)
    · exact .inr (.inr ⟨tag, h1, h.has _ _ (by decide) h2⟩)
  | structs => exact h.compound hv
  | unions => exact h.compound hv
  | enums =>
    obtain ⟨h1, d, h2, h3⟩ := hv
    exact ⟨h.enum _ h1, d, h2, fun n i hi => ⟨(h3 n i hi).1, h.has _ _ (by decide) (h3 n i hi).2⟩⟩
  | «variables» =>
    obtain ⟨h1, h2, val, t, h3, h4, h5⟩ := hv
    exact ⟨h1, h.has _ _ (by decide) h2, val, t, h3, h.type h4, h5⟩
  | functions =>
    obtain ⟨h1, r, ps, qs, h2, h3, h4, h5⟩ := hv
    exact ⟨h1, r, ps, qs, h2, h.type h3, fun p hp => h.type (h4 p hp), h5⟩
  | values => exact hv
  | macros => exact hv
  | fnmacros => exact hv

/-- Every entry is an old one or a well-formed one. -/
theorem wf_step (hs : TablesWf cfg junk s) (hg : Grows s s')
    (hn : ∀ k n v, dget (s'.defs k) n = some v → dget (s.defs k) n = some v ∨ EntryWf cfg junk s' k n v) :
    TablesWf cfg junk s' := by
  intro k n v h
  rcases hn k n v h with h1 | h1
  · exact hg.entry (hs k n v h1)
  · exact h1

theorem dhas_add {k k' : Kind} {n n' : Str} {v : DefVal} :
    dhas ((addDef s k n v).defs k') n' = true ↔ (k = k' ∧ n = n') ∨ dhas (s.defs k') n' = true := by
  unfold dhas
  rw [defs_addDef]
  split <;> simp [*]

/-- Names of tags contain a blank, identifiers do not. -/
theorem isName_blank {n : Str} (h : IsName cfg n) : ' ' ∉ n := by
  intro hm
  have := h.2.1 _ hm
  revert this; decide

theorem compWord_tag {u u' : Bool} {tag tag' : Str} (h : compWord u ++ ' ' :: tag = compWord u' ++ ' ' :: tag') :
    u = u' ∧ tag = tag' := by
  cases u <;> cases u' <;> first | (simpa [compWord] using h; done) | (simp [compWord] at h; done)

theorem compWord_enum {u : Bool} {tag tag' : Str} : compWord u ++ ' ' :: tag ≠ c%"enum" ++ ' ' :: tag' := by
  cases u <;> simp [compWord]

/-- Adding under a name that is no tag, or in another table. -/
theorem grows_add {k : Kind} {n : Str} {v : DefVal} (h : k = .types → ' ' ∉ n) : Grows s (addDef s k n v) := by
  have key : ∀ w tag, TagEntry s w tag → TagEntry (addDef s k n v) w tag := by
    intro w tag ht
    unfold TagEntry
    rw [defs_addDef, if_neg]
    · exact ht
    · rintro ⟨h1, rfl⟩
      exact h h1 (by simp)
  exact ⟨fun k' n' _ hh => dhas_add.2 (.inr hh), fun u => key _, key _⟩

theorem wf_add {k : Kind} {n : Str} {v : DefVal} (hs : TablesWf cfg junk s) (h : k = .types → ' ' ∉ n)
    (hv : EntryWf cfg junk (addDef s k n v) k n v) : TablesWf cfg junk (addDef s k n v) := by
  refine wf_step hs (grows_add h) fun k' n' v' he => ?_
  rw [defs_addDef] at he
  split at he
  · rename_i hh; obtain ⟨rfl, rfl⟩ := hh; cases he; exact .inr hv
  · exact .inl he

/-- Adding a tag with its entry. -/
theorem grows_tag {k : Kind} {w tag : Str} {v : DefVal} {t : CType}
    (ht : t = ⟨w, [.sym tag], [some [], some []]⟩) (hk : k ≠ .types) (hw : w = c%"enum" ∨ ∃ u, w = compWord u) :
    Grows s (addDef (addDef s k tag v) .types (w ++ ' ' :: tag) (.type t)) := by
  subst ht
  have key : ∀ w' tag', (w' = c%"enum" ∨ ∃ u, w' = compWord u) → TagEntry s w' tag' →
      TagEntry (addDef (addDef s k tag v) .types (w ++ ' ' :: tag) (.type ⟨w, [.sym tag], [some [], some []]⟩)) w' tag' := by
    intro w' tag' hw' ht
    unfold TagEntry
    rw [defs_addDef]
    split
    · rename_i hh
      have : w = w' ∧ tag = tag' := by
        rcases hw with rfl | ⟨u, rfl⟩ <;> rcases hw' with rfl | ⟨u', rfl⟩
        · exact ⟨rfl, by simpa using hh.2⟩
        · exact absurd hh.2.symm compWord_enum
        · exact absurd hh.2 compWord_enum
        · obtain ⟨rfl, rfl⟩ := compWord_tag hh.2; exact ⟨rfl, rfl⟩
      rw [this.1, this.2]
    · rw [defs_addDef, if_neg (fun h => hk h.1)]; exact ht
  exact ⟨fun k' n' _ hh => dhas_add.2 (.inr (dhas_add.2 (.inr hh))), fun u tag => key _ tag (.inr ⟨u, rfl⟩),
    fun tag => key _ tag (.inl rfl)⟩

/-- The entry just added. -/
theorem tagEntry_new {k : Kind} {w tag : Str} {v : DefVal} :
    TagEntry (addDef (addDef s k tag v) .types (w ++ ' ' :: tag) (.type ⟨w, [.sym tag], [some [], some []]⟩)) w tag := by
  unfold TagEntry
  rw [defs_addDef, if_pos ⟨rfl, rfl⟩]

theorem wf_compound {u : Bool} {tag : Str} {ms : List Member} {pack : Option Nat} (hs : TablesWf cfg junk s)
    (hm : ∀ m ∈ ms, MemberWf cfg (TypeName cfg junk s) m) :
    TablesWf cfg junk (addDef (addDef s (compKind u) tag (.compound ms pack)) .types (compWord u ++ ' ' :: tag)
      (.type ⟨compWord u, [.sym tag], [some [], some []]⟩)) := by
  have hg := grows_tag (s := s) (k := compKind u) (w := compWord u) (tag := tag) (v := .compound ms pack) rfl
    (by cases u <;> decide) (.inr ⟨u, rfl⟩)
  refine wf_step hs hg fun k' n' v' he => ?_
  rw [defs_addDef] at he
  split at he
  · rename_i hh
    obtain ⟨rfl, rfl⟩ := hh
    right
    exact .inr (.inl ⟨u, tag, rfl, dhas_add.2 (.inr (dhas_add.2 (.inl ⟨rfl, rfl⟩)))⟩)
  · rw [defs_addDef] at he
    split at he
    · rename_i hh
      obtain ⟨rfl, rfl⟩ := hh
      cases he
      right
      have hc : CompoundWf cfg junk (addDef (addDef s (compKind u) tag (.compound ms pack)) .types
          (compWord u ++ ' ' :: tag) (.type ⟨compWord u, [.sym tag], [some [], some []]⟩)) u tag (.compound ms pack) :=
        ⟨tagEntry_new, ms, pack, rfl, fun m h => by
          rcases hm m h with ⟨n, h3, h4, h5⟩ | h3
          · exact .inl ⟨n, h3, h4, hg.type h5⟩
          · exact .inr h3⟩
      cases u <;> exact hc
    · exact .inl he

theorem wf_enum {tag : Str} {d : Dict Str PVal} (hs : TablesWf cfg junk s)
    (hd : ∀ n i, dget d n = some i → Spec.IsNumber i ∧ dhas (s.defs .values) n = true) :
    TablesWf cfg junk (addDef (addDef s .enums tag (.enum d)) .types (c%"enum " ++ tag)
      (.type ⟨c%"enum", [.sym tag], [some [], some []]⟩)) := by
  have hg := grows_tag (s := s) (k := .enums) (w := c%"enum") (tag := tag) (v := .enum d) rfl (by decide) (.inl rfl)
  refine wf_step hs hg fun k' n' v' he => ?_
  rw [defs_addDef] at he
  split at he
  · rename_i hh
    obtain ⟨rfl, rfl⟩ := hh
    right
    exact .inr (.inr ⟨tag, rfl, dhas_add.2 (.inr (dhas_add.2 (.inl ⟨rfl, rfl⟩)))⟩)
  · rw [defs_addDef] at he
    split at he
    · rename_i hh
      obtain ⟨rfl, rfl⟩ := hh
      cases he
      right
      exact ⟨tagEntry_new (w := c%"enum"), d, rfl, fun n i h => ⟨(hd n i h).1, hg.has _ _ (by decide) (hd n i h).2⟩⟩
    · exact .inl he

end

end Pyclib
