import Verif.Spec.Chosen
import Verif.Proof.DeadPack
import Verif.Props.Selected
/-! Proofs about headers with pragmas that select the same lines. -/
namespace Pyclib
open Spec

section
variable {E : Type} {sem : PPSem E}

/-- The state, of whose packings only the last is kept. -/
def PPState.norm (S : PPState E) : PPState E := S.withPacks [(0, lastPack S.packList)]

/-- Text with its packing. -/
def tagOut : Option Out → Option Nat → List (Str × Option Nat)
  | some (.code t), p => [(t, p)]
  | _, _ => []

/-- The selected lines alone. -/
def coreRun (sem : PPSem E) : PPState E → List Line → Except PyErr (PPState E × List (Str × Option Nat))
  | S, [] => .ok (S, [])
  | S, l :: ls =>
    match ppStep sem 0 S l with
    | .error e => .error e
    | .ok (S1, o) =>
      match coreRun sem S1.norm ls with
      | .error e => .error e
      | .ok (S2, cs) => .ok (S2, tagOut o (lastPack S1.packList) ++ cs)

/-- The lines selected. -/
def selLines : List (Entry E) → List Line
  | [] => []
  | .sel _ l :: es => l :: selLines es
  | _ :: es => selLines es

/-- `f` gives the packings of the lines. -/
def Tagged (f : Nat → Option Nat) : List Out → List (Str × Option Nat) → Prop
  | [], cs => cs = []
  | .blank :: os, cs => Tagged f os cs
  | .code t :: os, cs => ∃ p cs', cs = (t, p) :: cs' ∧ PackIs f p t (nlText os) ∧ Tagged f os cs'

theorem lastPack_append (a : List (Nat × Option Nat)) {m : List (Nat × Option Nat)} (hm : m ≠ []) : lastPack (a ++ m) = lastPack m := by
  unfold lastPack
  rw [List.getLast?_append_of_ne_nil a hm]

theorem lastPack_shift (k : Nat) (m : List (Nat × Option Nat)) : lastPack (shiftPacks k m) = lastPack m := by
  unfold lastPack shiftPacks
  rw [List.getLast?_map]
  cases m.getLast? <;> rfl

theorem step_norm (i : Nat) (S : PPState E) (l : Line) :
    (∃ e, ppStep sem i S l = .error e ∧ ppStep sem 0 S.norm l = .error e) ∨
    ∃ S1 S1' o m, ppStep sem i S l = .ok (S1, o) ∧ ppStep sem 0 S.norm l = .ok (S1', o) ∧ S1'.norm = S1.norm ∧
      lastPack S1'.packList = lastPack S1.packList ∧ S1.packList = S.packList ++ m ∧ (∀ q ∈ m, i ≤ q.1) ∧ ((∀ r, l ≠ .pragma r) → m = []) := by
  have := ppStep_shift (sem := sem) i 0 S.norm S.packList l
  rw [Nat.add_zero, show S.norm.withPacks S.packList = S from rfl] at this
  rcases this with ⟨e, h1, h2⟩ | ⟨S1, o, m, h1, h2, h3, _, h4⟩
  · exact .inl ⟨e, h2, h1⟩
  · have hlast : lastPack S1.packList = lastPack (S.packList ++ shiftPacks i m) := by
      rw [h3]
      by_cases hm : m = []
      · subst hm
        simp [PPState.norm, PPState.withPacks, shiftPacks, lastPack]
      · rw [lastPack_append _ hm, lastPack_append _ (by simpa [shiftPacks] using hm), lastPack_shift]
    refine .inr ⟨_, S1, o, shiftPacks i m, h2, h1, ?_, hlast, rfl, ?_, fun h => by rw [h4 h]; rfl⟩
    · simp only [PPState.norm, PPState.withPacks] at hlast ⊢
      rw [hlast]
    · intro q hq
      obtain ⟨q', _, rfl⟩ := List.mem_map.1 hq
      simp

/-- The first line is a selected pragma. -/
def HeadPragma : List (Entry E) → Prop
  | .sel _ (.pragma _) :: _ => True
  | _ => False

/-- No pragma is selected right after text. -/
def ApartE (sem : PPSem E) : List (Entry E) → Prop
  | [] => True
  | .sel _ (.code t) :: es => (HeadPragma es → ∀ env, (sem.expand env t).all isWhite = true) ∧ ApartE sem es
  | _ :: es => ApartE sem es

theorem apart_tail {e : Entry E} {es : List (Entry E)} (h : ApartE sem (e :: es)) : ApartE sem es := by
  unfold ApartE at h
  split at h
  · trivial
  · cases ‹_ = _›; exact h.2
  · cases ‹_ = _›; exact h

theorem trRun_le : ∀ (es : List (Entry E)) (i : Nat) (S S1 : PPState E) (os : List Out), trRun sem i S es = .ok (S1, os) → os.length ≤ es.length
  | [], i, S, S1, os, h => by cases h; simp
  | e :: es, i, S, S1, os, h => by
    simp only [trRun] at h
    split at h
    · cases h
    · rename_i s' o _
      simp only [andThen_ok] at h
      split at h
      · cases h
      · rename_i s2 os2 eq
        cases h
        have := trRun_le es _ _ _ _ eq
        cases o <;> simp <;> omega

theorem step_code {i : Nat} {S S1 : PPState E} {l : Line} {x : Str} (h : ppStep sem i S l = .ok (S1, some (.code x))) :
    ∃ t, l = .code t ∧ x = sem.expand S.env t := by
  cases l with
  | code t =>
    refine ⟨t, rfl, ?_⟩
    simp only [ppStep] at h
    split at h
    · cases h
    · cases h; rfl
    · cases h
  | _ =>
    exfalso
    simp only [ppStep] at h
    revert h
    repeat' split
    all_goals simp

theorem entries_run : ∀ (es : List (Entry E)) (i : Nat) (S : PPState E), PackInv i S →
    (∀ e, trRun sem i S es = .error e → coreRun sem S.norm (selLines es) = .error e) ∧
    ∀ S1 os, trRun sem i S es = .ok (S1, os) → ∃ cs m, coreRun sem S.norm (selLines es) = .ok (S1.norm, cs) ∧ S1.packList = S.packList ++ m ∧
      (∀ q ∈ m, i ≤ q.1 ∧ (¬ HeadPragma es → i < q.1)) ∧
      (os.length = es.length → ApartE sem es → (∀ o ∈ os, '\n' ∉ o.text) → ∀ T a f, T = a ++ nlText os → a.count '\n' = i →
        PkFun T (S.packList ++ m) f → Tagged f os cs)
  | [], i, S, _ => by
    refine ⟨fun e h => (by cases h), fun S1 os h => ?_⟩
    cases h
    exact ⟨[], [], rfl, by simp, by simp, fun _ _ _ _ _ _ _ _ _ => rfl⟩
  | e :: es, i, S, hi => by
    -- one step, in the file and alone
    have key : (∃ x, trStep sem i S e = .error x ∧ coreRun sem S.norm (selLines (e :: es)) = .error x) ∨
        ∃ S1 o m, trStep sem i S e = .ok (S1, o) ∧ S1.packList = S.packList ++ m ∧ (∀ q ∈ m, i ≤ q.1) ∧ (¬ HeadPragma (e :: es) → m = []) ∧
          coreRun sem S.norm (selLines (e :: es)) = (match coreRun sem S1.norm (selLines es) with
            | .error e => .error e
            | .ok (S2, cs) => .ok (S2, tagOut o (lastPack S1.packList) ++ cs)) ∧
          ∀ x, o = some (.code x) → m = [] ∧ ∃ env t, e = .sel env (.code t) ∧ x = sem.expand S.env t := by
      have quiet : ∀ o, (o = none ∨ o = some Out.blank) → ∀ r, r = coreRun sem S.norm (selLines es) → r =
          (match coreRun sem S.norm (selLines es) with
            | .error e => .error e
            | .ok (S2, cs) => .ok (S2, tagOut o (lastPack S.packList) ++ cs)) := by
        intro o ho r hr
        rw [hr]
        have : tagOut o (lastPack S.packList) = [] := by rcases ho with rfl | rfl <;> rfl
        rw [this]
        split <;> simp_all
      cases e with
      | cond =>
        exact .inr ⟨S, some .blank, [], rfl, by simp, by simp, fun _ => rfl, quiet _ (.inr rfl) _ rfl, fun x h => by cases h⟩
      | skip l =>
        refine .inr ⟨S, skipOut l, [], rfl, by simp, by simp, fun _ => rfl, quiet _ ?_ _ rfl, fun x h => ?_⟩
        · cases l <;> simp [skipOut]
        · cases l <;> simp [skipOut] at h
      | sel env l =>
        rcases step_norm (sem := sem) i S l with ⟨x, h1, h2⟩ | ⟨S1, S1', o, m, h1, h2, h3, h4, h5, h6, h7⟩
        · exact .inl ⟨x, h1, by simp only [selLines, coreRun, h2]⟩
        · refine .inr ⟨S1, o, m, h1, h5, h6, ?_, ?_, ?_⟩
          · intro hp
            refine h7 (fun r hr => hp ?_)
            subst hr
            trivial
          · simp only [selLines, coreRun, h2, h3, h4]
          · intro x hx
            subst hx
            obtain ⟨t, rfl, hx⟩ := step_code h1
            exact ⟨h7 (fun r => Line.noConfusion), env, t, rfl, hx⟩
    rcases key with ⟨x, k1, k2⟩ | ⟨S1, o, m, k1, k2, k3, k4, k5, k6⟩
    · refine ⟨fun e h => ?_, fun S1 os h => ?_⟩
      · simp only [trRun, k1] at h
        cases h
        exact k2
      · simp only [trRun, k1] at h
        cases h
    · have hi1 := trStep_packInv hi k1
      obtain ⟨ih1, ih2⟩ := entries_run es (i + 1) S1 hi1
      refine ⟨fun e h => ?_, fun S2 os h => ?_⟩
      · simp only [trRun, k1, andThen_ok] at h
        split at h
        · rename_i x hx
          cases h
          rw [k5, ih1 _ hx]
        · cases h
      · simp only [trRun, k1, andThen_ok] at h
        split at h
        · cases h
        · rename_i S3 os' hx
          cases h
          obtain ⟨cs, m', j1, j2, j3, j4⟩ := ih2 _ _ hx
          refine ⟨tagOut o (lastPack S1.packList) ++ cs, m ++ m', by rw [k5, j1], by rw [j2, k2, List.append_assoc], ?_, ?_⟩
          · intro q hq
            rcases List.mem_append.1 hq with hq | hq
            · exact ⟨k3 q hq, fun h => by rw [k4 h] at hq; cases hq⟩
            · have := (j3 q hq).1
              exact ⟨by omega, fun _ => by omega⟩
          · intro hN hap hnl T a f hT ha hf
            have hle := trRun_le (sem := sem) es _ _ _ _ hx
            rw [← List.append_assoc, ← k2] at hf
            cases o with
            | none => simp at hN; omega
            | some o =>
              simp only [Option.toList, List.cons_append, List.nil_append, List.length_cons] at hN hT hnl ⊢
              have hN' : os'.length = es.length := by omega
              have hnl' : ∀ o ∈ os', '\n' ∉ o.text := fun o ho => hnl o (by simp [ho])
              have hon : '\n' ∉ o.text := hnl o (by simp)
              have e1 : T = (a ++ '\n' :: o.text) ++ nlText os' := by rw [hT]; simp [nlText]
              have e2 : (a ++ '\n' :: o.text).count '\n' = i + 1 := by
                rw [List.count_append, List.count_cons_self, List.count_eq_zero.2 hon, ha]
              have ih := j4 hN' (apart_tail hap) hnl' T _ f e1 e2 hf
              cases o with
              | blank => exact ih
              | code x =>
                obtain ⟨hm, env, t, rfl, hx'⟩ := k6 x rfl
                subst hm
                refine ⟨lastPack S1.packList, cs, rfl, ?_, ih⟩
                have hl : ∀ q ∈ S1.packList, q.1 ≤ i := by
                  rw [k2, List.append_nil]
                  intro q hq
                  rcases hi.lt q hq with h | h <;> omega
                have := packIs_lines (ls := [x]) (l := S1.packList) (m := m') (i := i) (T := T) (a := a) (u := nlText os') (f := f)
                  (by simpa [Out.text] using hon) (by rw [hT]; simp [nlText, joinC, Out.text]) ha hf hl (fun q hq => by have := (j3 q hq).1; simpa using this)
                  (by
                    by_cases hp : HeadPragma es
                    · right
                      simp only [ApartE] at hap
                      have := hap.1 hp S.env
                      rw [← hx'] at this
                      simpa using this
                    · left
                      intro q hq
                      have := (j3 q hq).2 hp
                      simpa using this)
                simpa [joinC] using this

/-- Two outputs with the same lines and packings, apart from empty lines. -/
theorem tagged_split {f : Nat → Option Nat} : ∀ {os : List Out} {t : Str} {p : Option Nat} {cs : List (Str × Option Nat)}, Tagged f os ((t, p) :: cs) →
    ∃ a os', nlText os = a ++ '\n' :: (t ++ nlText os') ∧ a.all isWhite = true ∧ PackIs f p t (nlText os') ∧ Tagged f os' cs
  | [], _, _, _, h => by simp [Tagged] at h
  | .blank :: os, t, p, cs, h => by
    obtain ⟨a, os', h1, h2, h3⟩ := tagged_split (os := os) (t := t) (p := p) (cs := cs) h
    refine ⟨'\n' :: a, os', ?_, ?_, h3⟩
    · simp only [nlText, List.flatMap_cons, Out.text] at h1 ⊢
      rw [h1]; rfl
    · simpa using ⟨rfl, by simpa using h2⟩
  | .code x :: os, t, p, cs, h => by
    obtain ⟨p', cs', e, h1, h2⟩ := h
    cases e
    exact ⟨[], os, by simp [nlText, Out.text], rfl, h1, h2⟩

theorem tagged_codes {f : Nat → Option Nat} : ∀ {os : List Out} {cs : List (Str × Option Nat)}, Tagged f os cs → codes os = cs.map (·.1)
  | [], _, h => by cases h; rfl
  | .blank :: os, cs, h => by
    have := tagged_codes (os := os) h
    simpa [codes] using this
  | .code x :: os, cs, h => by
    obtain ⟨p, cs', rfl, _, h2⟩ := h
    have := tagged_codes h2
    simp only [codes] at this
    simp [codes, this]

theorem followsP_tagged {f f' : Nat → Option Nat} : ∀ (cs : List (Str × Option Nat)) {os os' : List Out}, Tagged f os cs → Tagged f' os' cs →
    (∀ t ∈ cs.map (·.1), Starts t ∧ t.getLast? ≠ some '\\') → FollowsP f f' (nlText os) (nlText os')
  | [], os, os', h, h', _ => by
    have := followsP_blank (f := f) (f' := f') followsP_nil (codes_white (tagged_codes h)) (codes_white (tagged_codes h'))
      (by simpa using nlText_eol os) (by simpa using nlText_eol os')
    simpa using this
  | (t, p) :: cs, os, os', h, h', hs => by
    obtain ⟨a, r, h1, h2, hp, h3⟩ := tagged_split h
    obtain ⟨a', r', h1', h2', hp', h3'⟩ := tagged_split h'
    have ih := followsP_tagged cs h3 h3' (fun t ht => hs t (by simp at ht ⊢; exact .inr ht))
    obtain ⟨s1, s2⟩ := hs t (by simp)
    have e := nlText_eol os
    have e' := nlText_eol os'
    rw [h1] at e ⊢
    rw [h1'] at e' ⊢
    exact followsP_blank (followsP_text ⟨respaced_refl _ _ _ _ (Nat.lt_succ_self _), s1, s2, s2⟩ ih hp hp') h2 h2' e e'

end
end Pyclib
