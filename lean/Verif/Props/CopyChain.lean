import Verif.Props.CopyFrom
/-! C102, chains of parsers that copy from each other. -/
namespace Pyclib
open Spec

/-! ### Records after an import -/

theorem rt_names {kw : St} (k : Kind) : ∀ (l : List (Str × DefVal)) (s : St), RTInv kw s →
    RTInv kw (importNames s k l) ∧ ∀ f ∈ dkeys (importNames s k l).fileDefs, f ∈ dkeys s.fileDefs ∨ f = baseOf s.cur
  | [], _, h => ⟨h, fun _ h => .inl h⟩
  | (n, v) :: l, s, h => by
    obtain ⟨h1, h2⟩ := rt_names (kw := kw) k l (addDef s k n v) (h.addDef k n v)
    refine ⟨h1, fun f hf => ?_⟩
    rcases h2 f hf with hf | hf
    · exact files_addDef hf
    · exact .inr hf

theorem rt_kinds {kw : St} (d : Kind → Option (Dict Str DefVal)) : ∀ (ks : List Kind) (s : St), RTInv kw s →
    RTInv kw (importKinds s d ks).1 ∧ ∀ f ∈ dkeys (importKinds s d ks).1.fileDefs, f ∈ dkeys s.fileDefs ∨ f = baseOf s.cur
  | [], _, h => ⟨h, fun _ h => .inl h⟩
  | k :: ks, s, h => by
    simp only [importKinds]
    cases hd : d k with
    | none => exact ⟨h, fun _ h => .inl h⟩
    | some names =>
      obtain ⟨h1, h2⟩ := rt_names (kw := kw) k names s h
      obtain ⟨h3, h4⟩ := rt_kinds (kw := kw) d ks _ h1
      refine ⟨h3, fun f hf => ?_⟩
      rcases h4 f hf with hf | hf
      · exact h2 f hf
      · rw [cur_importNames] at hf
        exact .inr hf

theorem rt_import {kw : St} : ∀ (data : RawDefs DefVal) (s : St), GoodData data → RTInv kw s → (∀ p ∈ data, p.1 ∉ dkeys s.fileDefs) →
    RTInv kw (importDict s data).1 ∧ ∀ f ∈ dkeys (importDict s data).1.fileDefs, f ∈ dkeys s.fileDefs ∨ f ∈ dkeys data
  | [], _, _, h, _ => ⟨h, fun _ h => .inl h⟩
  | (f, d) :: data, s, hg, h, hn => by
    have hc := hg.complete (f, d) (by simp)
    have hb : baseOf f = f := hg.base (f, d) (by simp)
    have hfs := hg.files
    simp only [DNodup, dkeys, List.map_cons, List.nodup_cons] at hfs
    rw [importDict_cons s f d data hc]
    have h0 : RTInv kw (setFile s f) := ⟨h.wf.setFile f, h.last, .inl (by
      show baseOf f ∉ _
      rw [hb]
      exact hn (f, d) (by simp)), h.kw⟩
    obtain ⟨h1, h2⟩ := rt_kinds (kw := kw) d dataList _ h0
    have hcur : baseOf (setFile s f).cur = f := hb
    rw [hcur] at h2
    obtain ⟨h3, h4⟩ := rt_import (kw := kw) data _ ⟨fun p hp => hg.complete p (by simp [hp]), hfs.2, fun p hp => hg.base p (by simp [hp])⟩ h1
      (fun p hp hk => by
        rcases h2 _ hk with hk | hk
        · exact hn p (by simp [hp]) hk
        · exact hfs.1 (hk ▸ List.mem_map.2 ⟨p, hp, rfl⟩))
    refine ⟨h3, fun g hg' => ?_⟩
    rcases h4 g hg' with hg' | hg'
    · rcases h2 g hg' with hg' | hg'
      · exact .inl hg'
      · exact .inr (by simp [dkeys, hg'])
    · exact .inr (List.mem_cons_of_mem _ hg')

/-! ### What holds for all parsers of a chain -/

/-- The files `pre` have been read, by this parser or by parsers before it. -/
structure ChainInv (pre : List (Str × Str)) (s : St) : Prop where
  rt : RTInv (initStore []) s
  keys : ∀ f ∈ dkeys s.fileDefs, f ∈ pre.map (fun p => some (basename p.1))
  mac : ∀ p ∈ pre, ∀ n, (recorded s (some (basename p.1)) .macros n).isSome → ∃ r, .define n r ∈ fileLines p.2

theorem chain_file {w : Setup} {pre : List (Str × Str)} {s s1 : St} {path text out : Str} (h : ChainInv pre s)
    (hn : ((pre ++ [(path, text)]).map fun p => basename p.1).Nodup)
    (hu : ∀ n, .undef n ∈ fileLines text → ∀ q ∈ pre, q ≠ (path, text) → ∀ r, .define n r ∉ fileLines q.2)
    (e : processFile w s path text = .ok (s1, out)) : ChainInv (pre ++ [(path, text)]) s1 := by
  have hnot : ∀ p ∈ pre, basename p.1 ≠ basename path := by
    rw [List.map_append, List.nodup_append] at hn
    intro p hp
    exact hn.2.2 _ (List.mem_map.2 ⟨p, hp, rfl⟩) _ (by simp)
  have hfresh : some (basename path) ∉ dkeys s.fileDefs := by
    intro hf
    obtain ⟨p, hp, e⟩ := List.mem_map.1 (h.keys _ hf)
    exact hnot p hp (by injection e)
  have hi := file_inv e h.rt hfresh (by
    intro n hnu f hf
    by_cases hf0 : f ∈ dkeys s.fileDefs
    · obtain ⟨p, hp, rfl⟩ := List.mem_map.1 (h.keys _ hf0)
      cases hr : recorded s (some (basename p.1)) .macros n with
      | none => rfl
      | some v =>
        obtain ⟨r, hr'⟩ := h.mac p hp n (by rw [hr]; rfl)
        exact absurd hr' (hu n hnu p hp (fun e => hnot p hp (by rw [e])) r)
    · exact recorded_fresh hf0 _ _)
  refine ⟨hi.rt, fun f hf => ?_, fun p hp n hr => ?_⟩
  · rw [List.map_append]
    rcases hi.files f hf with hf | hf
    · exact List.mem_append_left _ (h.keys f hf)
    · exact List.mem_append_right _ (by simp [hf])
  · rcases List.mem_append.1 hp with hp | hp
    · have hne : some (basename p.1) ≠ some (basename path) := fun e => hnot p hp (by injection e)
      rw [hi.others _ hne] at hr
      exact h.mac p hp n hr
    · rw [List.mem_singleton] at hp
      subst hp
      exact hi.macros n hr

theorem chain_files {w : Setup} : ∀ (fs pre : List (Str × Str)) (s s' : St), ChainInv pre s → CacheSafe [] (pre ++ fs) →
    processFiles w s fs = .ok s' → ChainInv (pre ++ fs) s'
  | [], pre, s, s', h, _, e => by cases e; simpa using h
  | (path, text) :: fs, pre, s, s', h, hc, e => by
    simp only [processFiles] at e
    split at e
    · cases e
    · rename_i s1 out e1
      have happ : pre ++ (path, text) :: fs = (pre ++ [(path, text)]) ++ fs := by simp
      have h1 := chain_file h (by
        have := hc.1
        rw [happ, List.map_append, List.nodup_append] at this
        exact this.1) (fun n hn q hq hne => (hc.2 (path, text) (by simp) n hn).2 q (by simp [hq]) hne) e1
      rw [happ]
      exact chain_files fs _ s1 s' h1 (happ ▸ hc) e

theorem recAt_raw (s : St) (f : Option Str) (k : Kind) (n : Str) : recAt (rawOf s.fileDefs) f k n = recorded s f k n := by
  unfold recAt recorded rawOf
  induction s.fileDefs with
  | nil => rfl
  | cons p l ih =>
    simp only [List.map_cons, dget]
    split
    · rfl
    · exact ih

theorem chain_copy {pre : List (Str × Str)} {s : St} (h : ChainInv pre s) : ChainInv pre (copyOf [] s) := by
  have hg := goodData_rawOf h.rt.wf
  obtain ⟨h1, h2⟩ := rt_import (kw := initStore []) (rawOf s.fileDefs) Store.empty hg (rtInv_init []) (fun _ _ hk => nomatch hk)
  refine ⟨h1, fun f hf => ?_, fun p hp n hr => ?_⟩
  · rcases h2 f hf with hf | hf
    · cases hf
    · refine h.keys f ?_
      simpa [dkeys, rawOf, List.map_map, Function.comp_def] using hf
  · refine h.mac p hp n ?_
    have e : recorded (copyOf [] s) (some (basename p.1)) .macros n = _ := recorded_importDict Store.empty _ hg _ _ _
    rw [e, recAt_raw] at hr
    cases hx : recorded s (some (basename p.1)) .macros n with
    | some v => rfl
    | none =>
      rw [hx] at hr
      exact absurd hr (by simp [recorded, Store.empty])

/-! ### Chains -/

/-- Parsers that read these groups of files, each copying from the one before it. -/
def chain (w : Setup) : St → List (List (Str × Str)) → Except PyErr St
  | s, [] => .ok s
  | s, fs :: gr =>
    match processFiles w (copyOf [] s) fs with
    | .error e => .error e
    | .ok s' => chain w s' gr

theorem chain_same {w : Setup} (hp : PyWords w.py) (hf : [] ∉ w.cfg.extraTypes) (hm : [] ∉ w.mods) :
    ∀ (gr : List (List (Str × Str))) (pre : List (Str × Str)) (s t : St), MacOk s → MacOk t → ChainInv pre t →
      CacheSafe [] (pre ++ gr.flatten) → (∀ k n, dget (t.defs k) n = dget (s.defs k) n) →
      (∀ e, processFiles w s gr.flatten = .error e → chain w t gr = .error e) ∧
      ∀ u, processFiles w s gr.flatten = .ok u → ∃ u', chain w t gr = .ok u' ∧ ∀ k n, dget (u'.defs k) n = dget (u.defs k) n
  | [], pre, s, t, _, _, _, _, h => ⟨fun _ h => (nomatch h), fun u e => by cases e; exact ⟨t, rfl, h⟩⟩
  | fs :: gr, pre, s, t, hs, ht, hi, hc, h => by
    have hcopy : ∀ k n, dget ((copyOf [] t).defs k) n = dget (s.defs k) n := fun k n => (rt_reload hi.rt k n).trans (h k n)
    have hci := chain_copy hi
    have htm : MacOk (copyOf [] t) := macOk_same hci.rt.wf hs hcopy
    obtain ⟨h1, h2⟩ := C102_visible hp hf hm hs htm hcopy fs
    rw [List.flatten_cons] at hc ⊢
    simp only [chain]
    cases e : processFiles w s fs with
    | error e1 =>
      have hbad : ∀ (l gs : List (Str × Str)) (s : St), processFiles w s l = .error e1 → processFiles w s (l ++ gs) = .error e1 := by
        intro l gs
        induction l with
        | nil => intro s h; cases h
        | cons f l ih =>
          intro s h
          obtain ⟨path, text⟩ := f
          simp only [List.cons_append, processFiles] at h ⊢
          split at h
          · exact h
          · exact ih _ h
      rw [hbad fs _ s e, h1 e1 e]
      exact ⟨fun _ h => h, fun _ h => (nomatch h)⟩
    | ok s' =>
      obtain ⟨t', e', h3⟩ := h2 s' e
      rw [processFiles_append fs _ s s' e, e']
      rw [← List.append_assoc] at hc
      have hcs : CacheSafe [] (pre ++ fs) := by
        refine ⟨?_, fun p hp n hn => ⟨fun v hv => (nomatch hv), fun q hq => ((hc.2 p (List.mem_append_left _ hp) n hn).2 q (List.mem_append_left _ hq))⟩⟩
        have := hc.1
        rw [List.map_append, List.nodup_append] at this
        exact this.1
      exact chain_same hp hf hm gr (pre ++ fs) s' t' (macOk_files e hs) (macOk_files e' htm) (chain_files fs pre _ t' hci hcs e') hc h3

/-- C102, chains: each parser reads a group of headers and copies from the one before it.  The last one raises what a single parser
for all headers raises, or has the same tables. -/
theorem C102_chain_partial {w : Setup} (hp : PyWords w.py) (hf : [] ∉ w.cfg.extraTypes) (hm : [] ∉ w.mods)
    {gr : List (List (Str × Str))} (hc : CacheSafe [] gr.flatten) :
    (∀ e, processFiles w Store.empty gr.flatten = .error e → chain w Store.empty gr = .error e) ∧
    ∀ u, processFiles w Store.empty gr.flatten = .ok u → ∃ u', chain w Store.empty gr = .ok u' ∧
      ∀ k n, dget (u'.defs k) n = dget (u.defs k) n :=
  chain_same hp hf hm gr [] Store.empty Store.empty empty_macOk empty_macOk
    ⟨rtInv_init [], fun _ h => (nomatch h), fun _ h => (nomatch h)⟩ hc fun _ _ => rfl

/-! ### The order of the parsers -/

theorem eachRead_of {w : Setup} : ∀ {ps : List (List (Str × Str) × St)}, (∀ p ∈ ps, CacheSafe [] p.1 ∧ processFiles w Store.empty p.1 = .ok p.2) →
    EachRead w (ps.map (·.1)) (ps.map (·.2))
  | [], _ => trivial
  | p :: ps, h => ⟨(h p (by simp)).1, (h p (by simp)).2, eachRead_of fun q hq => h q (by simp [hq])⟩

/-- C102: the order of the parsers in `copy_from` does not matter, if no header of them defines what another one defines or asks for. -/
theorem C102_order_partial {w : Setup} (hp : PyWords w.py) (hf : [] ∉ w.cfg.extraTypes) (hm : [] ∉ w.mods) {r : Str × Str → St}
    {ps ps' : List (List (Str × Str) × St)} (he : ∀ p ∈ ps, CacheSafe [] p.1 ∧ processFiles w Store.empty p.1 = .ok p.2)
    (hr : ∀ f ∈ (ps.map (·.1)).flatten, ∃ out, processFile w Store.empty f.1 f.2 = .ok (r f, out))
    (hpw : (ps.map (·.1)).flatten.Pairwise (Apart w Store.empty r)) (hperm : ps'.Perm ps) (gs : List (Str × Str)) :
    (∀ e, processFiles w (copyOfAll (ps.map (·.2))) gs = .error e ↔ processFiles w (copyOfAll (ps'.map (·.2))) gs = .error e) ∧
    ∀ u, processFiles w (copyOfAll (ps.map (·.2))) gs = .ok u → ∃ u', processFiles w (copyOfAll (ps'.map (·.2))) gs = .ok u' ∧
      ∀ k n, dget (u'.defs k) n = dget (u.defs k) n := by
  have hpf : ((ps'.map (·.1)).flatten).Perm ((ps.map (·.1)).flatten) := (hperm.map _).flatten
  have hr' : ∀ f ∈ (ps'.map (·.1)).flatten, ∃ out, processFile w Store.empty f.1 f.2 = .ok (r f, out) := fun f hf => hr f (hpf.mem_iff.1 hf)
  have hpw' := (hpf.pairwise_iff fun h => Spec.Apart.symm h).2 hpw
  obtain ⟨s1, s2, h1, h2, h3⟩ := C85_order hp hf hm empty_macOk r hr hpw hpf
  obtain ⟨a1, a2⟩ := C102_many_partial hp hf hm (eachRead_of he) hr hpw gs
  obtain ⟨b1, b2⟩ := C102_many_partial hp hf hm (eachRead_of fun p hp => he p (hperm.mem_iff.1 hp)) hr' hpw' gs
  rw [processFiles_append _ gs _ _ h1] at a1 a2
  rw [processFiles_append _ gs _ _ h2] at b1 b2
  obtain ⟨c1, c2⟩ := C102_visible hp hf hm (macOk_files h1 empty_macOk) (macOk_files h2 empty_macOk) (fun k n => (h3 k n).symm) gs
  cases hx : processFiles w s1 gs with
  | error e1 =>
    rw [a1 e1 hx, b1 e1 (c1 e1 hx)]
    exact ⟨fun _ => Iff.rfl, fun _ h => (nomatch h)⟩
  | ok v =>
    obtain ⟨v2, hv2, d2⟩ := c2 v hx
    obtain ⟨v1', e1, d1⟩ := a2 v hx
    obtain ⟨v2', e2, d2'⟩ := b2 v2 hv2
    rw [e1, e2]
    refine ⟨fun _ => ⟨fun h => (nomatch h), fun h => (nomatch h)⟩, fun u hu => ?_⟩
    cases hu
    exact ⟨v2', rfl, fun k n => by rw [d2', d2, d1]⟩

/-- The order of the parsers in the example `C102_many_example`. -/
theorem C102_order_example : ∃ u u', processFiles exSetup (copyOfAll manyParts) manyFiles = .ok u ∧
    processFiles exSetup (copyOfAll manyParts.reverse) manyFiles = .ok u' ∧ ∀ k n, dget (u'.defs k) n = dget (u.defs k) n := by
  obtain ⟨_, u, _, e, _⟩ := C102_many_example
  have h : ∀ f ∈ exHeaders, (match processFile exSetup Store.empty f.1 f.2 with
    | .ok _ => true
    | .error _ => false) = true := by decide +kernel
  have hps : ∀ p ∈ exHeaders.map (fun f => ([f], aloneOf exSetup Store.empty f)),
      CacheSafe [] p.1 ∧ processFiles exSetup Store.empty p.1 = .ok p.2 := by
    intro p hp
    obtain ⟨f, hf, rfl⟩ := List.mem_map.1 hp
    obtain ⟨out, e⟩ := aloneOf_ok (h f hf)
    refine ⟨⟨by simp, fun p hp n _ => ⟨fun v hv => (nomatch hv), fun q hq hne => ?_⟩⟩, ?_⟩
    · rw [List.mem_singleton.1 hp, List.mem_singleton.1 hq] at hne
      exact absurd rfl hne
    · obtain ⟨path, text⟩ := f
      simp only [processFiles]
      simp only at e
      rw [e]
  have hflat : ((exHeaders.map (fun f => ([f], aloneOf exSetup Store.empty f))).map (·.1)).flatten = exHeaders := by
    generalize exHeaders = l
    induction l with
    | nil => rfl
    | cons f l ih => simpa using ih
  have hpart : (exHeaders.map (fun f => ([f], aloneOf exSetup Store.empty f))).map (·.2) = manyParts := by
    rw [manyParts, List.map_map]
    exact List.map_congr_left fun _ _ => rfl
  have hall := C102_order_partial exSetup_words (by decide) (by decide) hps (fun f hf => aloneOf_ok (h f (hflat ▸ hf)))
    (by rw [hflat]; exact exHeaders_apart) (List.reverse_perm _) manyFiles
  rw [List.map_reverse, hpart] at hall
  obtain ⟨u', e', h'⟩ := hall.2 u e
  exact ⟨u, u', e, e', h'⟩

/-- Three parsers. -/
def chainFiles : List (List (Str × Str)) :=
  [[(c%"a.h", c%"#define A 2\nint x[A];")], [(c%"b.h", c%"#ifdef A\ntypedef int num;\n#endif")], [(c%"c.h", c%"num f(num y);\nint z[A];")]]

theorem C102_chain_example : ∃ u u', processFiles exSetup Store.empty chainFiles.flatten = .ok u ∧ chain exSetup Store.empty chainFiles = .ok u' ∧
    (∀ k n, dget (u'.defs k) n = dget (u.defs k) n) ∧
    ((dget (u.defs .functions) c%"f").isSome && (dget (u.defs .types) c%"num").isSome && (dget (u.defs .variables) c%"z").isSome) = true := by
  obtain ⟨u, e, hu⟩ := files_check (fs := chainFiles.flatten) (p := fun u => (dget (u.defs .functions) c%"f").isSome &&
    (dget (u.defs .types) c%"num").isSome && (dget (u.defs .variables) c%"z").isSome) (by decide +kernel)
  have hc : CacheSafe [] chainFiles.flatten := by
    refine ⟨by decide, fun p hp n hn => ?_⟩
    have : ∀ p ∈ chainFiles.flatten, ∀ l ∈ fileLines p.2, (match l with | .undef _ => false | _ => true) = true := by decide +kernel
    exact absurd (this p hp _ hn) (by simp)
  obtain ⟨u', e', h'⟩ := (C102_chain_partial exSetup_words (by decide) (by decide) hc).2 u e
  exact ⟨u, u', e, e', h', hu⟩

end Pyclib
