import Verif.Proof.RelaidPack
import Verif.Props.Respace
import Verif.Props.File
import Verif.Props.Reads
/-! Proofs about files that are split into two. -/
namespace Pyclib
open Spec

theorem respaced_refl {f : Nat → Option Nat} : ∀ (n : Nat) (k : Ctx) (p : Char) (t : Str), t.length < n → Respaced f f k p t t
  | 0, _, _, t, h => by omega
  | n + 1, k, p, t, h => by
    have e := (List.takeWhile_append_dropWhile (p := isWhite) (l := t)).symm
    have w1 := takeWhile_white t
    cases hd : t.dropWhile isWhite with
    | nil =>
      rw [hd, List.append_nil] at e
      rw [e]
      exact .tail _ _ _ _ w1 w1
    | cons c u =>
      rw [hd] at e
      have hc : isWhite c = false := by
        have := List.head?_dropWhile_not isWhite t
        rw [hd] at this
        simpa using this
      have hl : u.length < n := by
        have := congrArg List.length e
        simp at this
        omega
      rw [e]
      by_cases hq : isQuoteC c = true
      · cases hm : matchQuoted c u with
        | none => exact .char _ _ _ _ c u u w1 w1 hc (.inl rfl) rfl (fun _ => ⟨hm, hm⟩) (respaced_refl n _ _ u hl)
        | some x =>
          obtain ⟨a, r⟩ := x
          have := congrArg List.length (matchQuoted_eq hm)
          simp at this
          exact .literal _ _ _ _ c u u a r r w1 w1 hq (.inl rfl) rfl hm hm (respaced_refl n _ _ u hl) (respaced_refl n _ _ r (by omega))
      · exact .char _ _ _ _ c u u w1 w1 hc (.inl rfl) rfl (fun h => absurd h hq) (respaced_refl n _ _ u hl)

theorem lay_extend {tail x : Str} {p : Char} {text : Str} {ts : List Tk} (h : Lay ⟨tail, fun _ => none⟩ p text ts) :
    Lay ⟨tail ++ x, fun _ => none⟩ p (text ++ x) ts := by
  induction h with
  | nil p => exact Lay.nil (doc := ⟨tail ++ x, fun _ => none⟩) p
  | cons p ws c w text ts pk h1 h2 h3 h4 _ ih =>
    rw [List.append_assoc]
    exact Lay.cons (doc := ⟨tail ++ x, fun _ => none⟩) p ws c w (text ++ x) ts pk h1 h2 h3 h4 ih

theorem skipWs_front (t : Str) : ∀ (a : Str) (p : Char), a.all isWhite = true → skipWs p (a ++ '\n' :: t) = skipWs '\n' t
  | [], p, _ => rfl
  | c :: a, p, h => by
    simp only [List.all_cons, Bool.and_eq_true] at h
    simp only [List.cons_append, skipWs, h.1, if_true]
    exact skipWs_front t a c h.2

theorem scan_skip {g : Gram} (n k : Nat) (s : St) {x y : Pos} (h : x.skip = y.skip) : scan g n k s x = scan g n k s y := by
  cases k with
  | zero => rfl
  | succ k => rw [scan, scan, h]

/-- A header in front of another text. -/
theorem parseDefs_split {g : Gram} (hg : gramOk g = true) (hpk : g.pack = fun _ => none)
    (hj : ∀ t t', Respaced (fun _ => none) (fun _ => none) .free ';' t t' → g.junk t = g.junk t') {tail a t : Str} {s s' : St} {ts : List Tk}
    (hh : CHeader g s ts s') (hl : Lay ⟨tail, fun _ => none⟩ ' ' a ts) (ht : tail.all isWhite = true) (hC : ∀ u ∈ ts, u.w ≠ c%"\"C\"") :
    parseDefs g s (a ++ '\n' :: t) = parseDefs g s' t := by
  have hl2 : Lay ⟨tail ++ '\n' :: t, g.pack⟩ ' ' (a ++ '\n' :: t) ts := by rw [hpk]; exact lay_extend hl
  have h : At ⟨tail ++ '\n' :: t, g.pack⟩ ⟨' ', a ++ '\n' :: t⟩ (ts ++ []) := by simpa [At] using hl2
  have hlen := At.length h
  simp only [List.append_nil] at hlen
  obtain ⟨j', hj', e⟩ := scan_read hg rfl ((a ++ '\n' :: t).length + 1) hh ⟨' ', a ++ '\n' :: t⟩ [] ((a ++ '\n' :: t).length + 1) h (by
    omega) (by simp) (.inl hC)
  have hr := lay_rest (At.drop ts h)
  unfold parseDefs
  rw [e]
  have hla : ('\n' :: t).length ≤ (a ++ '\n' :: t).length := by simp
  have hlt := lay_length hl2
  rw [scan_skip (y := ⟨' ', '\n' :: t⟩)]
  · rw [scan_fuel (noEmpty_of_ok hg) _ (('\n' :: t).length + 1) _ (('\n' :: t).length + 1) _ _ (by simp only; omega) (by simp) (by
      rw [hr] at hj'
      simp at hj' ⊢
      omega) (by simp)]
    refine C59_blanks_partial (c := none) (text := '\n' :: t) (text' := t) hg hpk s' hj ?_
    exact respP_strip' (respaced_refl _ _ _ _ (Nat.lt_succ_self _))
  · unfold Pos.skip
    rw [hr]
    exact skipWs_front t tail _ ht

/-! ### The preprocessor -/

section
variable {E : Type}

/-- The state with other packings. -/
def PPState.withPk (S : PPState E) (T : PPState E) : PPState E := { S with packStack := T.packStack, packing := T.packing, packList := T.packList }

theorem ppStep_pk (sem : PPSem E) (i i' : Nat) (S T : PPState E) (l : Line) (hl : ∀ r, l ≠ .pragma r) :
    ppStep sem i' (S.withPk T) l = (ppStep sem i S l).map (fun q => (q.1.withPk T, q.2)) := by
  cases l with
  | pragma r => exact absurd rfl (hl r)
  | _ =>
    simp only [ppStep, PPState.withPk]
    repeat' split
    all_goals first | rfl | simp_all [Except.map]

theorem ppRun_pk (sem : PPSem E) (T : PPState E) : ∀ (ls : List Line), (∀ l ∈ ls, ∀ r, l ≠ .pragma r) → ∀ (i i' : Nat) (S : PPState E),
    ppRun sem i' (S.withPk T) ls = (ppRun sem i S ls).map (fun q => (q.1.withPk T, q.2))
  | [], _, _, _, _ => rfl
  | l :: ls, h, i, i', S => by
    simp only [ppRun]
    rw [ppStep_pk sem i i' S T l (h l (by simp))]
    cases ppStep sem i S l with
    | error e => rfl
    | ok q =>
      obtain ⟨S1, o⟩ := q
      simp only [Except.map]
      rw [ppRun_pk sem T ls (fun l hl => h l (by simp [hl])) (i + 1) (i' + 1) S1]
      cases ppRun sem (i + 1) S1 ls with
      | error e => rfl
      | ok q => rfl

/-- Without pragmas the list of packings stays. -/
theorem ppRun_packs (sem : PPSem E) {ls : List Line} (h : ∀ l ∈ ls, ∀ r, l ≠ .pragma r) {i : Nat} {S S1 : PPState E} {os : List Out}
    (e : ppRun sem i S ls = .ok (S1, os)) : S1.packList = S.packList := by
  have := ppRun_pk sem S ls h i i S
  rw [show S.withPk S = S from rfl, e] at this
  simp only [Except.map, Except.ok.injEq, Prod.mk.injEq, and_true] at this
  rw [this]
  rfl
end

/-- The run over a file without pack pragmas. -/
theorem words_state (w : Setup) {s : Store DefVal} (hs : TablesOk s) {b : SBlock} (hb : b.Ok) {ws : List Str}
    (ht : FileWords w.sem (b.trace (fileSem w) s) ws) : ∃ st os, ppRun w.sem 0 (PPState.init s) (b.texts.map classify) = .ok (st, os) ∧
      st.env = (b.run (fileSem w) s).1 ∧ st.packList = [(0, none)] ∧ st.ifTrue = (PPState.init s).ifTrue ∧ st.ifHit = (PPState.init s).ifHit := by
  have hc := fun env t c => file_cond w env t c
  have hl := fun env t l => file_line w env t l
  obtain ⟨hlines, hok⟩ := sblock_lines b hb
  have htr := sblock_trace (P := TablesOk) hc hl b hb s hs
  have hrun := (sblock_run (P := TablesOk) hc hl b hb s hs).1
  have hmach : ppRun w.sem 0 (PPState.init s) (b.texts.map classify) =
      trRun w.sem 0 (PPState.init s) (b.tree.trace w.sem s) := by
    rw [hlines]
    exact block_tr (i := 0) (s := PPState.init s) w.sem b.tree hok rfl (by simp [PPState.init])
  have hlive : Live (PPState.init s) := ⟨rfl, by simp [PPState.init]⟩
  have hplain := block_plain w.sem b.tree hok s
  obtain ⟨henv, hend⟩ := block_env w.sem b.tree s
  have hend' : endEnv w.sem s (b.tree.trace w.sem s) = (b.run (fileSem w) s).1 := by
    rw [hend]
    exact congrArg Prod.fst hrun
  rw [show b.trace (fileSem w) s = b.tree.trace w.sem s from htr] at ht
  obtain ⟨st, os, its, h1, h2, h3, h4, h5, h6⟩ := words_run ht 0 (PPState.init s) hplain henv hlive
  obtain ⟨g1, g2⟩ := (trRun_flags w.sem [true] [true] rfl (by simp) (b.tree.trace w.sem s) hplain 0 (PPState.init s) hlive.1 hlive.2).2 st os h1
  exact ⟨st, os, hmach.trans h1, h6.trans hend', h5, g1, g2⟩

end Pyclib
