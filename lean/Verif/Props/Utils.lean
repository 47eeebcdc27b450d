import Verif.Spec.Utils
import Verif.Proof.Types
/-
C53-C57: searches, architecture detection, initialisation.
-/
set_option linter.unusedSimpArgs false
namespace Pyclib
open Spec

/-! ### C53, C54 -/

theorem searchDirs_first (fs : SearchFS) (name : Str) (ds : List Str) (p : Str) :
    searchDirs fs name ds = some p ↔ FirstOf (fun x => fs.isFile x = true) (Candidates fs name ds) p := by
  induction ds with
  | nil => simp [searchDirs, FirstOf, Candidates]
  | cons d ds ih =>
    unfold searchDirs
    by_cases h : fs.isFile (fs.join d name) = true
    · rw [if_pos h]
      constructor
      · intro hp; cases hp
        exact ⟨[], Candidates fs name ds, rfl, h, by simp⟩
      · rintro ⟨pre, post, he, hp, hpre⟩
        cases pre with
        | nil => simp [Candidates] at he; rw [he.1]
        | cons a pre =>
          simp [Candidates] at he
          exact (hpre a (by simp) (by rw [← he.1]; exact h)).elim
    · rw [if_neg h, ih]
      constructor
      · rintro ⟨pre, post, he, hp, hpre⟩
        exact ⟨fs.join d name :: pre, post, by simp only [Candidates, List.map_cons, List.cons_append] at he ⊢; rw [he], hp,
          fun y hy => by rcases List.mem_cons.1 hy with rfl | hy; exact h; exact hpre y hy⟩
      · rintro ⟨pre, post, he, hp, hpre⟩
        cases pre with
        | nil => simp [Candidates] at he; rw [← he.1] at hp; exact (h hp).elim
        | cons a pre =>
          simp only [Candidates, List.map_cons, List.cons_append, List.cons.injEq] at he
          exact ⟨pre, post, he.2, hp, fun y hy => hpre y (by simp [hy])⟩

theorem searchDirs_none (fs : SearchFS) (name : Str) (ds : List Str) :
    searchDirs fs name ds = none ↔ ∀ x ∈ Candidates fs name ds, fs.isFile x = false := by
  induction ds with
  | nil => simp [searchDirs, Candidates]
  | cons d ds ih =>
    unfold searchDirs
    by_cases h : fs.isFile (fs.join d name) = true
    · rw [if_pos h]; simp [Candidates, h]
    · rw [if_neg h, ih]; simp [Candidates] at h ⊢; intro _; exact h

theorem platformDirs_standard (p : Str) : platformDirs p = standardDirs p := by
  unfold platformDirs standardDirs
  by_cases h : p = c%"darwin"
  · subst h; rfl
  · rw [if_neg h, if_neg h]; rfl

/-- The caller's directories: none, or the contents of the list passed. -/
def callerDirs (h : ListHeap) : Option Nat → List Str
  | none => []
  | some r => h r

theorem extendDirs_list (h : ListHeap) (ref : Nat) (extra : List Str) (dirs : Option Nat) :
    (extendDirs h ref extra dirs).1 = callerDirs h dirs ++ (h ref).reverse ++ extra := by
  cases dirs with
  | none => simp [extendDirs, callerDirs]
  | some r =>
    unfold extendDirs callerDirs
    by_cases hr : h r = []
    · simp [hr]
    · simp [hr]

/-- The registered directories after a history. -/
theorem searchRun_registered (os : List SearchOp) : ∀ (h : ListHeap), (∀ o ∈ os, OwnLists o) →
    searchRun h os headerRef = h headerRef ++ registeredHeaders os ∧
    searchRun h os libraryRef = h libraryRef ++ registeredLibraries os := by
  have ext : ∀ (h : ListHeap) (ref : Nat) (extra : List Str) (dirs : Option Nat) (k : Nat), (∀ r, dirs = some r → 2 ≤ r) → k < 2 →
      (extendDirs h ref extra dirs).2 k = h k := by
    intro h ref extra dirs k hd hk
    cases dirs with
    | none => rfl
    | some r =>
      have := hd r rfl
      have hkr : k ≠ r := by omega
      simp only [extendDirs]
      split
      · rfl
      · simp only [hset]
        rw [if_neg hkr]
  have fh : ∀ (h : ListHeap) (fs : SearchFS) (n : Str) (dirs : Option Nat) (k : Nat), (∀ r, dirs = some r → 2 ≤ r) → k < 2 →
      (findHeader fs h n dirs).2 k = h k := by
    intro h fs n dirs k hd hk
    unfold findHeader
    have := ext h headerRef (platformDirs fs.platform) dirs k hd hk
    generalize extendDirs h headerRef (platformDirs fs.platform) dirs = x at this ⊢
    obtain ⟨ds, h'⟩ := x
    simp only
    split <;> exact this
  have fl : ∀ (h : ListHeap) (fs : SearchFS) (n : Str) (dirs : Option Nat) (k : Nat), (∀ r, dirs = some r → 2 ≤ r) → k < 2 →
      (findLibrary fs h n dirs).2 k = h k := by
    intro h fs n dirs k hd hk
    unfold findLibrary
    have := ext h libraryRef [] dirs k hd hk
    generalize extendDirs h libraryRef [] dirs = x at this ⊢
    obtain ⟨ds, h'⟩ := x
    simp only
    split
    · exact this
    · split
      · split <;> exact this
      · exact this
  induction os with
  | nil => intro h _; simp [searchRun, registeredHeaders, registeredLibraries]
  | cons o os ih =>
    intro h ho
    have h0 := ho o (by simp)
    obtain ⟨i1, i2⟩ := ih (searchStep h o) (fun x hx => ho x (by simp [hx]))
    unfold searchRun
    rw [i1, i2]
    cases o with
    | addHeader fs ds =>
      constructor
      · simp [searchStep, addLocations, hset, registeredHeaders]
      · simp [searchStep, addLocations, hset, registeredLibraries, headerRef, libraryRef]
    | addLibrary fs ds =>
      constructor
      · simp [searchStep, addLocations, hset, registeredHeaders, headerRef, libraryRef]
      · simp [searchStep, addLocations, hset, registeredLibraries]
    | findHeader fs n dirs =>
      have hd : ∀ r, dirs = some r → 2 ≤ r := by intro r hr; subst hr; exact h0
      simp [searchStep, registeredHeaders, registeredLibraries, fh h fs n dirs _ hd (show headerRef < 2 by decide),
        fh h fs n dirs _ hd (show libraryRef < 2 by decide)]
    | findLibrary fs n dirs =>
      have hd : ∀ r, dirs = some r → 2 ≤ r := by intro r hr; subst hr; exact h0
      simp [searchStep, registeredHeaders, registeredLibraries, fl h fs n dirs _ hd (show headerRef < 2 by decide),
        fl h fs n dirs _ hd (show libraryRef < 2 by decide)]
    | user r l =>
      have hr : 2 ≤ r := h0
      have e1 : headerRef ≠ r := by unfold headerRef; omega
      have e2 : libraryRef ≠ r := by unfold libraryRef; omega
      simp [searchStep, registeredHeaders, registeredLibraries, hset, e1, e2]

/-- C53, headers: after any history of registrations and searches, `find_header` gives the first existing
file in the directories of the caller, then the registered ones from the newest to the oldest (the
directory of PyCLibrary being the oldest), then the standard ones; `OSError` exactly if there is none. -/
theorem C53_header (bundled : Str) (os : List SearchOp) (ho : ∀ o ∈ os, OwnLists o) (fs : SearchFS) (name : Str) (dirs : Option Nat) :
    let h := searchRun (searchStart bundled) os
    let all := Candidates fs name (callerDirs h dirs ++ (bundled :: registeredHeaders os).reverse ++ standardDirs fs.platform)
    (∀ p, (findHeader fs h name dirs).1 = .ok p ↔ FirstOf (fun x => fs.isFile x = true) all p) ∧
    (∀ e, (findHeader fs h name dirs).1 = .error e ↔ e = .osError ∧ ∀ x ∈ all, fs.isFile x = false) := by
  intro h all
  have hl : (extendDirs h headerRef (platformDirs fs.platform) dirs).1 =
      callerDirs h dirs ++ (bundled :: registeredHeaders os).reverse ++ standardDirs fs.platform := by
    rw [extendDirs_list, show h headerRef = _ from (searchRun_registered os _ ho).1, platformDirs_standard]; rfl
  unfold findHeader
  generalize extendDirs h headerRef (platformDirs fs.platform) dirs = x at hl
  obtain ⟨ds, h'⟩ := x
  simp only at hl
  subst hl
  simp only
  constructor
  · intro p
    rw [← searchDirs_first]
    cases searchDirs fs name _ <;> simp
  · intro e
    rw [← searchDirs_none]
    cases searchDirs fs name _ <;> simp [eq_comm]

/-- C53, libraries: the same with the directories registered for libraries; if no file is found there, the
answer of the system's search. -/
theorem C53_library (bundled : Str) (os : List SearchOp) (ho : ∀ o ∈ os, OwnLists o) (fs : SearchFS) (name : Str) (dirs : Option Nat) :
    let h := searchRun (searchStart bundled) os
    let all := Candidates fs name (callerDirs h dirs ++ (registeredLibraries os).reverse)
    (∀ p, (findLibrary fs h name dirs).1 = .ok p ↔ FirstOf (fun x => fs.isFile x = true) all p ∨
      (∀ x ∈ all, fs.isFile x = false) ∧ fs.findLib name = some p ∧ p ≠ []) ∧
    (∀ e, (findLibrary fs h name dirs).1 = .error e ↔ e = .osError ∧ (∀ x ∈ all, fs.isFile x = false) ∧
      ∀ p, fs.findLib name = some p → p = []) := by
  intro h all
  have hl : (extendDirs h libraryRef [] dirs).1 = callerDirs h dirs ++ (registeredLibraries os).reverse := by
    rw [extendDirs_list, show h libraryRef = _ from (searchRun_registered os _ ho).2]
    simp [searchStart, libraryRef, headerRef]
  unfold findLibrary
  generalize extendDirs h libraryRef [] dirs = x at hl
  obtain ⟨ds, h'⟩ := x
  simp only at hl
  subst hl
  simp only
  constructor
  · intro p
    rw [← searchDirs_first, ← searchDirs_none]
    cases searchDirs fs name _ with
    | some q => simp
    | none =>
      cases fs.findLib name with
      | none => simp
      | some q =>
        by_cases hq : q = []
        · subst hq; simp
        · simp [hq]
          rintro rfl; exact hq
  · intro e
    rw [← searchDirs_none]
    cases searchDirs fs name _ with
    | some q => simp
    | none =>
      cases fs.findLib name with
      | none => simp [eq_comm]
      | some q => by_cases hq : q = [] <;> simp [hq, eq_comm]

/-- C53, the parser: every header given is used as it is if it is a file, and otherwise searched without
directories of the caller; the result keeps the order; the first missing header raises `OSError`. -/
theorem C53_parser (fs : SearchFS) (h : ListHeap) (hs : List Str) :
    (∀ ps, findHeaders fs h hs = .ok ps ↔ List.Forall₂ (fun x p => (fs.isFile x = true ∧ p = x) ∨
      (fs.isFile x = false ∧ (findHeader fs h x none).1 = .ok p)) hs ps) ∧
    (∀ e, findHeaders fs h hs = .error e ↔ e = .osError ∧ ∃ x ∈ hs, fs.isFile x = false ∧ (findHeader fs h x none).1 = .error .osError) := by
  have he : ∀ x e, (findHeader fs h x none).1 = .error e → e = .osError := by
    intro x e hx
    unfold findHeader at hx
    generalize extendDirs h headerRef (platformDirs fs.platform) none = y at hx
    obtain ⟨ds, h'⟩ := y
    simp only at hx
    split at hx
    · cases hx
    · cases hx; rfl
  induction hs with
  | nil =>
    constructor
    · intro ps
      simp only [findHeaders]
      constructor
      · intro hp; cases hp; exact .nil
      · intro hp; cases hp; rfl
    · intro e; simp [findHeaders]
  | cons x xs ih =>
    obtain ⟨ih1, ih2⟩ := ih
    by_cases hx : fs.isFile x = true
    · unfold findHeaders
      rw [if_pos hx]
      constructor
      · intro ps
        cases hr : findHeaders fs h xs with
        | error e =>
          simp only [hr]
          constructor
          · intro hc; cases hc
          · intro hc
            cases hc with
            | cons h1 h2 => rw [(ih1 _).2 h2] at hr; cases hr
        | ok qs =>
          simp only [hr]
          constructor
          · intro hc; cases hc
            exact .cons (.inl ⟨hx, rfl⟩) ((ih1 _).1 hr)
          · intro hc
            cases hc with
            | cons h1 h2 =>
              rw [(ih1 _).2 h2] at hr; cases hr
              rcases h1 with ⟨_, rfl⟩ | ⟨h1, _⟩
              · rfl
              · rw [hx] at h1; cases h1
      · intro e
        cases hr : findHeaders fs h xs with
        | error e' =>
          simp only [hr]
          have := (ih2 e').1 hr
          constructor
          · intro hc; cases hc
            obtain ⟨h1, y, hy, h2⟩ := this
            exact ⟨h1, y, by simp [hy], h2⟩
          · rintro ⟨h1, _⟩; rw [h1, this.1]
        | ok qs =>
          simp only [hr]
          constructor
          · intro hc; cases hc
          · rintro ⟨_, y, hy, h2, h3⟩
            rcases List.mem_cons.1 hy with rfl | hy
            · rw [hx] at h2; cases h2
            · have := (ih2 .osError).2 ⟨rfl, y, hy, h2, h3⟩
              rw [hr] at this; cases this
    · have hx' : fs.isFile x = false := by simpa using hx
      unfold findHeaders
      rw [if_neg hx]
      cases hf : (findHeader fs h x none).1 with
      | error e0 =>
        have := he x e0 hf
        subst this
        simp only
        constructor
        · intro ps
          constructor
          · intro hc; cases hc
          · intro hc
            cases hc with
            | cons h1 h2 =>
              rcases h1 with ⟨h1, _⟩ | ⟨_, h1⟩
              · exact (hx h1).elim
              · rw [hf] at h1; cases h1
        · intro e
          constructor
          · intro hc; cases hc
            exact ⟨rfl, x, by simp, hx', hf⟩
          · rintro ⟨rfl, _⟩; rfl
      | ok p =>
        simp only
        constructor
        · intro ps
          cases hr : findHeaders fs h xs with
          | error e =>
            simp only [hr]
            constructor
            · intro hc; cases hc
            · intro hc
              cases hc with
              | cons h1 h2 => rw [(ih1 _).2 h2] at hr; cases hr
          | ok qs =>
            simp only [hr]
            constructor
            · intro hc; cases hc
              exact .cons (.inr ⟨hx', hf⟩) ((ih1 _).1 hr)
            · intro hc
              cases hc with
              | cons h1 h2 =>
                rw [(ih1 _).2 h2] at hr; cases hr
                rcases h1 with ⟨h1, _⟩ | ⟨_, h1⟩
                · exact (hx h1).elim
                · rw [hf] at h1; cases h1; rfl
        · intro e
          cases hr : findHeaders fs h xs with
          | error e' =>
            simp only [hr]
            have := (ih2 e').1 hr
            constructor
            · intro hc; cases hc
              obtain ⟨h1, y, hy, h2⟩ := this
              exact ⟨h1, y, by simp [hy], h2⟩
            · rintro ⟨h1, _⟩; rw [h1, this.1]
          | ok qs =>
            simp only [hr]
            constructor
            · intro hc; cases hc
            · rintro ⟨_, y, hy, h2, h3⟩
              rcases List.mem_cons.1 hy with rfl | hy
              · rw [hf] at h3; cases h3
              · have := (ih2 .osError).2 ⟨rfl, y, hy, h2, h3⟩
                rw [hr] at this; cases this

/-- C53: on Linux (`sys.platform` is `linux`) no standard directory is searched. -/
theorem C53_linux : standardDirs c%"linux" = [] := by rfl

/-- C54: searches never change the registered directories: these depend on the registrations alone. -/
theorem C54_registered (h : ListHeap) (os : List SearchOp) (ho : ∀ o ∈ os, OwnLists o)
    (hs : ∀ o ∈ os, (∃ fs n r, o = .findHeader fs n r) ∨ (∃ fs n r, o = .findLibrary fs n r) ∨ ∃ r l, o = .user r l) :
    searchRun h os headerRef = h headerRef ∧ searchRun h os libraryRef = h libraryRef := by
  have h1 : registeredHeaders os = [] ∧ registeredLibraries os = [] := by
    clear ho
    induction os with
    | nil => exact ⟨rfl, rfl⟩
    | cons o os ih =>
      have hi := ih (fun x hx => hs x (by simp [hx]))
      rcases hs o (by simp) with ⟨fs, n, r, rfl⟩ | ⟨fs, n, r, rfl⟩ | ⟨r, l, rfl⟩ <;> exact hi
  obtain ⟨a, b⟩ := searchRun_registered os h ho
  rw [a, b, h1.1, h1.2]
  simp

/-- C54 (partial: a non-empty list passed by the caller is changed): without such a list a search changes
nothing; otherwise the only list changed is the one passed, to which directories are appended. -/
theorem C54_caller_partial (fs : SearchFS) (h : ListHeap) (name : Str) (dirs : Option Nat) :
    (callerDirs h dirs = [] → (findHeader fs h name dirs).2 = h ∧ (findLibrary fs h name dirs).2 = h) ∧
    (∀ k, some k ≠ dirs → (findHeader fs h name dirs).2 k = h k ∧ (findLibrary fs h name dirs).2 k = h k) ∧
    ∀ r, dirs = some r → h r <+: (findHeader fs h name dirs).2 r ∧ h r <+: (findLibrary fs h name dirs).2 r := by
  have e1 : (findHeader fs h name dirs).2 = (extendDirs h headerRef (platformDirs fs.platform) dirs).2 := by
    unfold findHeader
    generalize extendDirs h headerRef (platformDirs fs.platform) dirs = x
    obtain ⟨ds, h'⟩ := x
    simp only
    split <;> rfl
  have e2 : (findLibrary fs h name dirs).2 = (extendDirs h libraryRef [] dirs).2 := by
    unfold findLibrary
    generalize extendDirs h libraryRef [] dirs = x
    obtain ⟨ds, h'⟩ := x
    simp only
    split
    · rfl
    · split
      · split <;> rfl
      · rfl
  rw [e1, e2]
  have key : ∀ ref extra, (callerDirs h dirs = [] → (extendDirs h ref extra dirs).2 = h) ∧
      (∀ k, some k ≠ dirs → (extendDirs h ref extra dirs).2 k = h k) ∧ ∀ r, dirs = some r → h r <+: (extendDirs h ref extra dirs).2 r := by
    intro ref extra
    cases dirs with
    | none => exact ⟨fun _ => rfl, fun _ _ => rfl, fun r hr => by cases hr⟩
    | some q =>
      simp only [extendDirs, callerDirs]
      by_cases hq : h q = []
      · simp only [hq, if_true]
        exact ⟨fun _ => trivial, fun _ _ => trivial, fun r hr => by cases hr; exact List.prefix_refl _⟩
      · refine ⟨fun hc => (hq hc).elim, ?_⟩
        rw [if_neg hq]
        constructor
        · intro k hk
          simp only [hset]
          rw [if_neg (fun e => hk (by rw [e]))]
        · intro r hr; cases hr
          simp [hset]
  obtain ⟨a1, a2, a3⟩ := key headerRef (platformDirs fs.platform)
  obtain ⟨b1, b2, b3⟩ := key libraryRef []
  exact ⟨fun hc => ⟨a1 hc, b1 hc⟩, fun k hk => ⟨a2 k hk, b2 k hk⟩, fun r hr => ⟨a3 r hr, b3 r hr⟩⟩

/-- `os.path.join` of two paths on POSIX, for the examples. -/
def posixJoin (a b : Str) : Str :=
  if b.head? = some '/' then b
  else if a = [] ∨ a.getLast? = some '/' then a ++ b
  else a ++ c%"/" ++ b

/-- A file system with the headers `/u/a.h`, `/r/a.h` and `/p/b.h`. -/
def exSearchFS : SearchFS := ⟨fun d => decide (d ∈ [c%"/u", c%"/r", c%"/p", c%"/s"]), fun f => decide (f ∈ [c%"/u/a.h", c%"/r/a.h", c%"/p/b.h"]),
  posixJoin, c%"linux", fun _ => none⟩

/-- Registration of `/r`, `/x` (which does not exist) and `/s`; a list of the caller. -/
def exHist : List SearchOp := [.addHeader exSearchFS [c%"/r", c%"/x"], .user 2 [c%"/u"], .addHeader exSearchFS [c%"/s"], .findHeader exSearchFS c%"b.h" none]

example : ∀ o ∈ exHist, OwnLists o := by
  intro o ho
  simp [exHist] at ho
  rcases ho with rfl | rfl | rfl | rfl <;> simp [OwnLists]

example : searchRun (searchStart c%"/p") exHist headerRef = [c%"/p", c%"/r", c%"/s"] ∧
    (findHeader exSearchFS (searchRun (searchStart c%"/p") exHist) c%"a.h" none).1 = .ok c%"/r/a.h" ∧
    (findHeader exSearchFS (searchRun (searchStart c%"/p") exHist) c%"a.h" (some 2)).1 = .ok c%"/u/a.h" ∧
    (findHeader exSearchFS (searchRun (searchStart c%"/p") exHist) c%"b.h" (some 2)).1 = .ok c%"/p/b.h" ∧
    (findHeader exSearchFS (searchRun (searchStart c%"/p") exHist) c%"c.h" (some 2)).1 = .error .osError :=
  ⟨by decide, by decide, by decide, by decide, by decide⟩

/-- C54 fails: the list of the caller grows by the registered directories. -/
theorem C54_counterexample : ∃ (h : ListHeap) (fs : SearchFS), h 2 = [c%"/u"] ∧ (findHeader fs h c%"a.h" (some 2)).2 2 = [c%"/u", c%"/s", c%"/r", c%"/p"] :=
  ⟨searchRun (searchStart c%"/p") exHist, exSearchFS, by decide, by decide⟩

/-- Consequence: after a search with a list of their own, the caller does not find a header in a directory
registered later if an older directory, now part of their list, has one of the same name. -/
theorem C54_counterexample_stale : ∃ (os : List SearchOp) (fs : SearchFS), (∀ o ∈ os, OwnLists o) ∧
    (findHeader fs (searchRun (searchStart c%"/p") os) c%"a.h" none).1 = .ok c%"/new/a.h" ∧
    (findHeader fs (searchRun (searchStart c%"/p") os) c%"a.h" (some 2)).1 = .ok c%"/r/a.h" := by
  let fs : SearchFS := ⟨fun _ => true, fun f => decide (f ∈ [c%"/r/a.h", c%"/new/a.h"]), posixJoin, c%"linux", fun _ => none⟩
  refine ⟨[.addHeader fs [c%"/r"], .user 2 [c%"/mine"], .findHeader fs c%"b.h" (some 2), .addHeader fs [c%"/new"]], fs, ?_, by decide, by decide⟩
  intro o ho
  simp at ho
  rcases ho with rfl | rfl | rfl | rfl <;> simp [OwnLists]

/-! ### C55 -/

theorem byteAt_drop {b : List UInt8} {n i v : Nat} : ByteAt (b.drop n) i v ↔ ByteAt b (n + i) v := by
  simp [ByteAt, List.getElem?_drop]

theorem byteAt_cons_zero {x : UInt8} {b : List UInt8} {v : Nat} : ByteAt (x :: b) 0 v ↔ x.toNat = v := by
  simp [ByteAt]

theorem byteAt_cons_succ {x : UInt8} {b : List UInt8} {i v : Nat} : ByteAt (x :: b) (i + 1) v ↔ ByteAt b i v := by
  simp [ByteAt]

theorem list6 {l : List UInt8} (h : l.length = 6) : ∃ a b c d e f, l = [a, b, c, d, e, f] := by
  match l, h with
  | [a, b, c, d, e, f], _ => exact ⟨a, b, c, d, e, f, rfl⟩

theorem list4 {l : List UInt8} (h : l.length = 4) : ∃ a b c d, l = [a, b, c, d] := by
  match l, h with
  | [a, b, c, d], _ => exact ⟨a, b, c, d, rfl⟩

theorem list2 {l : List UInt8} (h : l.length = 2) : ∃ a b, l = [a, b] := by
  match l, h with
  | [a, b], _ => exact ⟨a, b, rfl⟩

/-- The machine name found, in terms of the bytes. -/
theorem sharedLibraryArch_ok (b : List UInt8) (s : Str) :
    sharedLibraryArch b = .ok s ↔ ∃ off m, LooksPE b off m ∧ s = (dget machineTypes m).getD c%"UNKNOWN" := by
  have pick : ∀ (n k i : Nat) (l : List UInt8), (b.drop n).take k = l → i < k → b[n + i]? = l[i]? := by
    intro n k i l hl hi
    rw [← hl, List.getElem?_take_of_lt hi, List.getElem?_drop]
  have t4 : ∀ (l : List UInt8) (w x y z : UInt8), l[0]? = some w → l[1]? = some x → l[2]? = some y → l[3]? = some z →
      l.take 4 = [w, x, y, z] := by
    intro l w x y z h0 h1 h2 h3
    match l, h0, h1, h2, h3 with
    | a :: b :: c :: d :: l, h0, h1, h2, h3 => simp at h0 h1 h2 h3; subst h0 h1 h2 h3; rfl
  have t6 : ∀ (l : List UInt8) (p q r s t u : UInt8), l[0]? = some p → l[1]? = some q → l[2]? = some r → l[3]? = some s →
      l[4]? = some t → l[5]? = some u → l.take 6 = [p, q, r, s, t, u] := by
    intro l p q r s t u h0 h1 h2 h3 h4 h5
    match l, h0, h1, h2, h3, h4, h5 with
    | a :: b :: c :: d :: e :: f :: l, h0, h1, h2, h3, h4, h5 => simp at h0 h1 h2 h3 h4 h5; subst h0 h1 h2 h3 h4 h5; rfl
  have hd60 : (b.take 64).drop 60 = (b.drop 60).take 4 := by rw [List.drop_take]
  have ht2 : (b.take 64).take 2 = b.take 2 := by rw [List.take_take]; rfl
  have hlen : (b.take 64).length ≠ 64 ↔ b.length < 64 := by rw [List.length_take]; omega
  unfold sharedLibraryArch
  simp only [hd60, ht2, hlen]
  constructor
  · intro h
    split at h
    · cases h
    · rename_i hl
      have hl : 64 ≤ b.length := by omega
      split at h
      · cases h
      · rename_i hm
        have hm : b.take 2 = [0x4D, 0x5A] := by simpa using hm
        have hl4 : ((b.drop 60).take 4).length = 4 := by rw [List.length_take, List.length_drop]; omega
        obtain ⟨w, x, y, z, h4⟩ := list4 hl4
        split at h
        · cases h
        · rename_i ho
          split at h
          · cases h
          · rename_i hp
            have hp' : ((b.drop (leNat ((b.drop 60).take 4))).take 6).length = 6 := by simpa using hp
            obtain ⟨p, q, r, s', t, u, h6⟩ := list6 hp'
            rw [h6] at h
            split at h
            · cases h
            · rename_i hsig
              have hsig : p = 0x50 ∧ q = 0x45 := by simpa using hsig
              have m0 := pick 0 2 0 _ (by simpa using hm) (by omega)
              have m1 := pick 0 2 1 _ (by simpa using hm) (by omega)
              have a0 := pick 60 4 0 _ h4 (by omega)
              have a1 := pick 60 4 1 _ h4 (by omega)
              have a2 := pick 60 4 2 _ h4 (by omega)
              have a3 := pick 60 4 3 _ h4 (by omega)
              have b0 := pick _ 6 0 _ h6 (by omega)
              have b1 := pick _ 6 1 _ h6 (by omega)
              have b4 := pick _ 6 4 _ h6 (by omega)
              have b5 := pick _ 6 5 _ h6 (by omega)
              refine ⟨leNat ((b.drop 60).take 4), leNat [t, u], ⟨hl, ⟨_, m0, rfl⟩, ⟨_, m1, rfl⟩,
                ⟨w.toNat, x.toNat, y.toNat, z.toNat, ⟨_, a0, rfl⟩, ⟨_, a1, rfl⟩, ⟨_, a2, rfl⟩, ⟨_, a3, rfl⟩, ?_⟩, by omega,
                ⟨_, b0, by rw [hsig.1]; rfl⟩, ⟨_, b1, by rw [hsig.2]; rfl⟩, t.toNat, u.toNat, ⟨_, b4, rfl⟩, ⟨_, b5, rfl⟩, by simp [leNat]⟩, ?_⟩
              · rw [h4]; simp only [leNat]; omega
              · simp only [List.drop] at h
                cases hg : dget machineTypes (leNat [t, u]) with
                | none => rw [hg] at h; cases h; rfl
                | some v => rw [hg] at h; cases h; rfl
  · rintro ⟨off, m, ⟨hl, ⟨x0, e0, v0⟩, ⟨x1, e1, v1⟩, ⟨w, x, y, z, ⟨w', ew, rfl⟩, ⟨x', ex, rfl⟩, ⟨y', ey, rfl⟩, ⟨z', ez, rfl⟩, rfl⟩, ho,
      ⟨p, ep, vp⟩, ⟨q, eq, vq⟩, l, hh, ⟨t, et, rfl⟩, ⟨u, eu, rfl⟩, rfl⟩, rfl⟩
    have h4 : (b.drop 60).take 4 = [w', x', y', z'] :=
      t4 _ _ _ _ _ (by rw [List.getElem?_drop]; exact ew) (by rw [List.getElem?_drop]; exact ex) (by rw [List.getElem?_drop]; exact ey)
        (by rw [List.getElem?_drop]; exact ez)
    have ho' : leNat ((b.drop 60).take 4) = w'.toNat + 256 * x'.toNat + 65536 * y'.toNat + 16777216 * z'.toNat := by
      rw [h4]; simp only [leNat]; omega
    have x0' : x0 = 0x4D := UInt8.toNat_inj.1 v0
    have x1' : x1 = 0x5A := UInt8.toNat_inj.1 v1
    have p' : p = 0x50 := UInt8.toNat_inj.1 vp
    have q' : q = 0x45 := UInt8.toNat_inj.1 vq
    have h2 : b.take 2 = [0x4D, 0x5A] := by
      match b, e0, e1 with
      | a :: c :: b, e0, e1 => simp at e0 e1; subst e0 e1; rw [x0', x1']; rfl
    rw [if_neg (by omega), if_neg (by rw [h2]; simp), if_neg (by rw [ho']; omega)]
    generalize w'.toNat + 256 * x'.toNat + 65536 * y'.toNat + 16777216 * z'.toNat = off at *
    rw [ho']
    have hlt : off + 5 < b.length := (List.getElem?_eq_some_iff.1 eu).1
    have h6 : (b.drop off).take 6 = [p, q, b[off + 2], b[off + 3], t, u] :=
      t6 _ _ _ _ _ _ _ (by rw [List.getElem?_drop]; exact ep) (by rw [List.getElem?_drop]; exact eq)
        (by rw [List.getElem?_drop]; exact List.getElem?_eq_getElem _) (by rw [List.getElem?_drop]; exact List.getElem?_eq_getElem _)
        (by rw [List.getElem?_drop]; exact et) (by rw [List.getElem?_drop]; exact eu)
    rw [h6, if_neg (by simp), if_neg (by rw [p', q']; simp)]
    have hle : leNat (List.drop 4 [p, q, b[off + 2], b[off + 3], t, u]) = t.toNat + 256 * u.toNat := by simp [leNat]
    rw [hle]
    cases dget machineTypes (t.toNat + 256 * u.toNat) <;> rfl

theorem looksPE_unique {b : List UInt8} {o o' m m' : Nat} (h : LooksPE b o m) (h' : LooksPE b o' m') : o = o' ∧ m = m' := by
  have ub : ∀ i v v', ByteAt b i v → ByteAt b i v' → v = v' := by
    rintro i v v' ⟨x, h1, rfl⟩ ⟨y, h2, rfl⟩
    rw [h1] at h2; cases h2; rfl
  obtain ⟨_, _, _, ⟨w, x, y, z, a, b1, c, d, rfl⟩, _, _, _, l, k, e, f, rfl⟩ := h
  obtain ⟨_, _, _, ⟨w', x', y', z', a', b1', c', d', rfl⟩, _, _, _, l', k', e', f', rfl⟩ := h'
  have := ub _ _ _ a a'; have := ub _ _ _ b1 b1'; have := ub _ _ _ c c'; have := ub _ _ _ d d'
  subst w' x' y' z'
  have := ub _ _ _ e e'; have := ub _ _ _ f f'
  subst l' k'
  exact ⟨rfl, rfl⟩

theorem machine_bits (m : Nat) : (let s := (dget machineTypes m).getD c%"UNKNOWN"
    if s = c%"I386" then [32] else if s = c%"IA64" ∨ s = c%"AMD64" then [64] else []) = machineBits m := by
  simp only
  unfold machineBits
  by_cases h1 : m = 0x14C
  · subst h1; rfl
  by_cases h2 : m = 0x200
  · subst h2; rfl
  by_cases h3 : m = 0x8664
  · subst h3; rfl
  have h4 : ¬ (m = 0x200 ∨ m = 0x8664) := fun h => h.elim h2 h3
  rw [if_neg h1, if_neg h4]
  have key : ∀ s, dget machineTypes m = some s → s ≠ c%"I386" ∧ s ≠ c%"IA64" ∧ s ≠ c%"AMD64" := by
    intro s hs
    have := dget_some_mem hs
    simp only [machineTypes, List.mem_cons, Prod.mk.injEq, List.mem_nil_iff, or_false] at this
    refine ⟨?_, ?_, ?_⟩ <;>
    · intro he
      subst he
      simp at this
      omega
  cases hg : dget machineTypes m with
  | none => rfl
  | some s =>
    obtain ⟨a, b, c⟩ := key s hg
    simp [a, b, c]

theorem winPlatform_arch (f : LibFile) (b : List UInt8) (hb : f.bytes = .ok b) : getArch c%"win32" f =
    (sharedLibraryArch b).map (fun s => if s = c%"I386" then [32] else if s = c%"IA64" ∨ s = c%"AMD64" then [64] else []) := by
  unfold getArch
  rw [if_pos (by decide)]
  simp only [hb]
  cases sharedLibraryArch b with
  | error e => rfl
  | ok s =>
    simp only [Except.map]
    split
    · rfl
    · split <;> rfl

/-- C55: for every PE image the machine word decides. -/
theorem C55_pe (f : LibFile) (b : List UInt8) (off m : Nat) (hb : f.bytes = .ok b) (h : IsPE b off m) :
    getArch c%"win32" f = .ok (machineBits m) ∧ libArch c%"win32" f = machineBits m := by
  have hl : LooksPE b off m := by
    obtain ⟨a, b1, c, d, e, g, i, _, _, j⟩ := h
    exact ⟨a, b1, c, d, e, g, i, j⟩
  have hs := (sharedLibraryArch_ok b _).2 ⟨off, m, hl, rfl⟩
  have hg : getArch c%"win32" f = .ok (machineBits m) := by
    rw [winPlatform_arch f b hb, hs, ← machine_bits]; rfl
  exact ⟨hg, by unfold libArch; rw [hg]⟩

/-- C55 (partial: the two bytes after `PE` are not looked at): if an architecture is reported for a byte
string, it is that of a PE image up to these bytes; for every other byte string detection fails and none is
reported. -/
theorem C55_other_partial (f : LibFile) (b : List UInt8) (hb : f.bytes = .ok b) :
    ((∃ l, getArch c%"win32" f = .ok l) ↔ ∃ off m, LooksPE b off m) ∧
    (libArch c%"win32" f ≠ [] → ∃ off m, LooksPE b off m ∧ libArch c%"win32" f = machineBits m) ∧
    ((∀ off m, ¬ LooksPE b off m) → libArch c%"win32" f = []) := by
  have key : ∀ off m, LooksPE b off m → getArch c%"win32" f = .ok (machineBits m) := by
    intro off m hl
    rw [winPlatform_arch f b hb, (sharedLibraryArch_ok b _).2 ⟨off, m, hl, rfl⟩, ← machine_bits]; rfl
  have key2 : ∀ l, getArch c%"win32" f = .ok l → ∃ off m, LooksPE b off m := by
    intro l hl
    rw [winPlatform_arch f b hb] at hl
    cases hs : sharedLibraryArch b with
    | error e => rw [hs] at hl; cases hl
    | ok s =>
      obtain ⟨off, m, h, _⟩ := (sharedLibraryArch_ok b s).1 hs
      exact ⟨off, m, h⟩
  refine ⟨⟨fun ⟨l, hl⟩ => key2 l hl, fun ⟨off, m, h⟩ => ⟨_, key off m h⟩⟩, ?_, ?_⟩
  · intro hne
    cases hg : getArch c%"win32" f with
    | error e => unfold libArch at hne; rw [hg] at hne; exact (hne rfl).elim
    | ok l =>
      obtain ⟨off, m, h⟩ := key2 l hg
      refine ⟨off, m, h, ?_⟩
      unfold libArch
      rw [key off m h]
  · intro hno
    unfold libArch
    cases hg : getArch c%"win32" f with
    | error e => rfl
    | ok l =>
      obtain ⟨off, m, h⟩ := key2 l hg
      exact (hno off m h).elim

/-- A minimal image: `MZ`, 58 bytes, offset 64, signature, machine word. -/
def exImage (x y : UInt8) (m : List UInt8) : List UInt8 :=
  [0x4D, 0x5A] ++ List.replicate 58 0 ++ [64, 0, 0, 0] ++ [0x50, 0x45, x, y] ++ m

example : IsPE (exImage 0 0 [0x64, 0x86]) 64 0x8664 := by
  refine ⟨by decide, ⟨_, rfl, rfl⟩, ⟨_, rfl, rfl⟩, ⟨_, _, _, _, ⟨_, rfl, rfl⟩, ⟨_, rfl, rfl⟩, ⟨_, rfl, rfl⟩, ⟨_, rfl, rfl⟩, rfl⟩, by decide,
    ⟨_, rfl, rfl⟩, ⟨_, rfl, rfl⟩, ⟨_, rfl, rfl⟩, ⟨_, rfl, rfl⟩, _, _, ⟨_, rfl, rfl⟩, ⟨_, rfl, rfl⟩, rfl⟩

/-- C55 fails: an architecture is reported for a byte string that is not a PE image. -/
theorem C55_counterexample : ∃ f : LibFile, ∃ b, f.bytes = .ok b ∧ (∀ off m, ¬ IsPE b off m) ∧ libArch c%"win32" f = [64] := by
  refine ⟨⟨.ok (exImage 1 1 [0x64, 0x86]), .error .osError⟩, _, rfl, ?_, by decide⟩
  intro off m h
  have hl : LooksPE (exImage 1 1 [0x64, 0x86]) 64 0x8664 := by
    refine ⟨by decide, ⟨_, rfl, rfl⟩, ⟨_, rfl, rfl⟩, ⟨_, _, _, _, ⟨_, rfl, rfl⟩, ⟨_, rfl, rfl⟩, ⟨_, rfl, rfl⟩, ⟨_, rfl, rfl⟩, rfl⟩, by decide,
      ⟨_, rfl, rfl⟩, ⟨_, rfl, rfl⟩, _, _, ⟨_, rfl, rfl⟩, ⟨_, rfl, rfl⟩, rfl⟩
  have hl' : LooksPE (exImage 1 1 [0x64, 0x86]) off m := by
    obtain ⟨a, b1, c, d, e, g, i, _, _, j⟩ := h
    exact ⟨a, b1, c, d, e, g, i, j⟩
  obtain ⟨rfl, rfl⟩ := looksPE_unique hl' hl
  obtain ⟨_, _, _, _, _, _, _, ⟨x, hx, hv⟩, _⟩ := h
  have : (exImage 1 1 [0x64, 0x86])[66]? = some 1 := by rfl
  rw [this] at hx; cases hx
  exact absurd hv (by decide)

/-! ### C56 -/

/-- The world of the metaclass in which the architecture is that found by `LibraryPath.arch`. -/
def archWorld (find : Str → Except PyErr Str) (realpath : Str → Str) (isFile : Str → Bool) (platform : Str) (files : Str → LibFile)
    (backends : List Str) (maxsize : Nat) : World :=
  ⟨find, realpath, isFile, fun p => libArch platform (files p), backends, pyBitness maxsize⟩

/-- The file a name or path stands for (c_library.py:56-62). -/
def ResolvesTo (w : World) : LibArg → Str → Prop
  | .name s, p => w.findLibrary s = .ok p
  | .path s, p => p = w.realpath s ∧ w.isFile p = true
  | .loaded _ _, _ => False

/-- C56: a library whose architectures are known and do not include that of Python raises `OSError`, and
nothing else happens, whatever loading it would do; a library of unknown or fitting architecture is opened
(or the object that exists is returned). -/
theorem C56_bitness (find : Str → Except PyErr Str) (realpath : Str → Str) (isFile : Str → Bool) (platform : Str) (files : Str → LibFile)
    (backends : List Str) (maxsize : Nat) (backend : Str) (hb : backend ∈ backends) (r : Registry) (a : LibArg)
    (create : Str → Except PyErr Unit) (p : Str) :
    let w := archWorld find realpath isFile platform files backends maxsize
    ResolvesTo w a p →
    (libArch platform (files p) ≠ [] ∧ pyBitness maxsize ∉ libArch platform (files p) →
      metaCall w backend r a create = (.error .osError, r)) ∧
    (libArch platform (files p) = [] ∨ pyBitness maxsize ∈ libArch platform (files p) →
      metaCall w backend r a create = openLib r p (create p)) := by
  intro w hr
  have hl : libPath w backend a = libPath.check w backend p := by
    cases a with
    | name s => simp only [libPath, show w.findLibrary s = .ok p from hr]
    | path s =>
      obtain ⟨h1, h2⟩ := hr
      simp only [libPath]
      rw [← h1, if_pos h2]
    | loaded b q => exact hr.elim
  unfold metaCall
  rw [hl]
  unfold libPath.check
  rw [if_neg (by simpa [w, archWorld] using hb)]
  have ha : w.arch p = libArch platform (files p) := rfl
  have hp : w.pyBits = pyBitness maxsize := rfl
  rw [ha, hp]
  constructor
  · intro h
    rw [if_pos h]
  · intro h
    rw [if_neg (by
      rintro ⟨h1, h2⟩
      rcases h with h | h
      · exact h1 h
      · exact h2 h)]

/-- C56: Python's word size is 64 exactly if `sys.maxsize` exceeds 2^32. -/
theorem C56_python : pyBitness 9223372036854775807 = 64 ∧ pyBitness 2147483647 = 32 := by decide

/-- A 32-bit library on a 64-bit Windows interpreter: instance of C56 with C55. -/
example (create : Str → Except PyErr Unit) (r : Registry) :
    metaCall (archWorld (fun s => .ok s) id (fun _ => true) c%"win32" (fun _ => ⟨.ok (exImage 0 0 [0x4C, 0x01]), .error .osError⟩)
      [c%"ctypes"] 9223372036854775807) c%"ctypes" r (.name c%"a.dll") create = (.error .osError, r) :=
  (C56_bitness (fun s => .ok s) id (fun _ => true) c%"win32" (fun _ => ⟨.ok (exImage 0 0 [0x4C, 0x01]), .error .osError⟩)
    [c%"ctypes"] 9223372036854775807 c%"ctypes" (by simp) r (.name c%"a.dll") create c%"a.dll" rfl).1 (by decide)

/-- C56: the word sizes come from the output of `file` as a whole, which begins with the name of the file:
a 32-bit library in a directory `64-bit` passes the check of a 64-bit interpreter. -/
theorem C56_counterexample_name : ∃ f : LibFile, f.fileOutput = .ok c%"/opt/64-bit/l.so: ELF 32-bit LSB shared object" ∧
    libArch c%"linux" f = [32, 64] :=
  ⟨⟨.error .osError, .ok c%"/opt/64-bit/l.so: ELF 32-bit LSB shared object"⟩, rfl, by decide⟩

theorem contains_iff (w s : Str) : contains s w = true ↔ ∃ a b, s = a ++ w ++ b := by
  induction s with
  | nil =>
    rw [contains, startsWith_iff]
    constructor
    · rintro ⟨r, h⟩; exact ⟨[], r, h⟩
    · rintro ⟨a, b, h⟩
      have h' : a = [] ∧ w = [] ∧ b = [] := by
        cases a <;> cases w <;> cases b <;> simp_all
      exact ⟨[], by rw [h'.2.1]; rfl⟩
  | cons c s ih =>
    rw [contains, Bool.or_eq_true, startsWith_iff, ih]
    constructor
    · rintro (⟨r, h⟩ | ⟨a, b, h⟩)
      · exact ⟨[], r, h⟩
      · exact ⟨c :: a, b, by rw [h]; rfl⟩
    · rintro ⟨a, b, h⟩
      cases a with
      | nil => exact .inl ⟨b, h⟩
      | cons d a => exact .inr ⟨a, b, by simp only [List.cons_append, List.cons.injEq] at h; exact h.2⟩

/-- The word sizes that the output of `file` names: on Linux `32-bit`, `64-bit`, on macOS
`(for architecture i386)`, `(for architecture x86_64)`. -/
def Named (platform out : Str) (n : Nat) : Prop :=
  ∃ a b, (platform = c%"linux" ∧ n = 32 ∧ out = a ++ c%"32-bit" ++ b) ∨
    (platform = c%"linux" ∧ n = 64 ∧ out = a ++ c%"64-bit" ++ b) ∨
    (platform = c%"darwin" ∧ n = 32 ∧ out = a ++ c%"(for architecture i386)" ++ b) ∨
    (platform = c%"darwin" ∧ n = 64 ∧ out = a ++ c%"(for architecture x86_64)" ++ b)

/-- C56: on Linux and macOS the word sizes of a library are those that `file` names; `is_32bit` and
`is_64bit` say whether the size is one of them, and `n/a` if there is none. On other systems than those
and Windows, and if `file` fails, there is none. -/
theorem C56_file (platform : Str) (hp : platform = c%"linux" ∨ platform = c%"darwin") (f : LibFile) (out : Str)
    (hf : f.fileOutput = .ok out) :
    (∀ n, n ∈ libArch platform f ↔ Named platform out n) ∧
    (∀ n b, isBits platform f n = some b ↔ (∃ m, Named platform out m) ∧ (b = true ↔ Named platform out n)) ∧
    (∀ n, isBits platform f n = none ↔ ∀ m, ¬ Named platform out m) := by
  have key : ∀ n, n ∈ libArch platform f ↔ Named platform out n := by
    intro n
    have hc := fun w => contains_iff w out
    have h1 : startsWith c%"linux" c%"win" = false ∧ startsWith c%"darwin" c%"win" = false ∧
        startsWith c%"linux" c%"linux" = true ∧ startsWith c%"darwin" c%"linux" = false := by decide
    rcases hp with rfl | rfl
    · have hg : libArch c%"linux" f = (if contains out c%"32-bit" then [32] else []) ++ (if contains out c%"64-bit" then [64] else []) := by
        unfold libArch getArch
        rw [if_neg (by rw [h1.1]; decide), if_neg (by decide), hf]
        simp only [h1.2.2.1, if_true]
      rw [hg, List.mem_append]
      constructor
      · rintro (h | h)
        · split at h
          · obtain ⟨a, b, e⟩ := (hc _).1 (by assumption); exact ⟨a, b, .inl ⟨rfl, by simpa using h, e⟩⟩
          · simp at h
        · split at h
          · obtain ⟨a, b, e⟩ := (hc _).1 (by assumption); exact ⟨a, b, .inr (.inl ⟨rfl, by simpa using h, e⟩)⟩
          · simp at h
      · rintro ⟨a, b, h | h | h | h⟩
        · left; rw [if_pos ((hc _).2 ⟨a, b, h.2.2⟩), h.2.1]; simp
        · right; rw [if_pos ((hc _).2 ⟨a, b, h.2.2⟩), h.2.1]; simp
        · exact absurd h.1 (by decide)
        · exact absurd h.1 (by decide)
    · have hg : libArch c%"darwin" f = (if contains out c%"(for architecture i386)" then [32] else []) ++
          (if contains out c%"(for architecture x86_64)" then [64] else []) := by
        unfold libArch getArch
        rw [if_neg (by rw [h1.2.1]; decide), if_neg (by decide), hf]
        simp only [h1.2.2.2, Bool.false_eq_true, if_false]
      rw [hg, List.mem_append]
      constructor
      · rintro (h | h)
        · split at h
          · obtain ⟨a, b, e⟩ := (hc _).1 (by assumption); exact ⟨a, b, .inr (.inr (.inl ⟨rfl, by simpa using h, e⟩))⟩
          · simp at h
        · split at h
          · obtain ⟨a, b, e⟩ := (hc _).1 (by assumption); exact ⟨a, b, .inr (.inr (.inr ⟨rfl, by simpa using h, e⟩))⟩
          · simp at h
      · rintro ⟨a, b, h | h | h | h⟩
        · exact absurd h.1 (by decide)
        · exact absurd h.1 (by decide)
        · left; rw [if_pos ((hc _).2 ⟨a, b, h.2.2⟩), h.2.1]; simp
        · right; rw [if_pos ((hc _).2 ⟨a, b, h.2.2⟩), h.2.1]; simp
  refine ⟨key, ?_, ?_⟩
  · intro n b
    unfold isBits
    by_cases h : libArch platform f = []
    · rw [if_pos h]
      have : ∀ m, ¬ Named platform out m := fun m hm => by have := (key m).2 hm; rw [h] at this; cases this
      constructor
      · intro x; cases x
      · rintro ⟨⟨m, hm⟩, _⟩; exact absurd hm (this m)
    · rw [if_neg h]
      obtain ⟨m, hm⟩ := List.exists_mem_of_ne_nil _ h
      rw [Option.some.injEq]
      constructor
      · rintro rfl; exact ⟨⟨m, (key m).1 hm⟩, by rw [decide_eq_true_eq, key]⟩
      · rintro ⟨_, hb⟩; rw [Bool.eq_iff_iff, decide_eq_true_eq, key, hb]
  · intro n
    unfold isBits
    by_cases h : libArch platform f = []
    · rw [if_pos h]
      exact ⟨fun _ m hm => (by have := (key m).2 hm; rw [h] at this; cases this), fun _ => rfl⟩
    · rw [if_neg h]
      obtain ⟨m, hm⟩ := List.exists_mem_of_ne_nil _ h
      exact ⟨fun x => (nomatch x), fun x => absurd ((key m).1 hm) (x m)⟩

/-- C56: on other systems, and if `file` fails, no word size is known. -/
theorem C56_unknown (platform : Str) (f : LibFile) (n : Nat)
    (h : (startsWith platform c%"win" = false ∧ platform ∉ [c%"linux2", c%"linux3", c%"linux", c%"darwin"]) ∨
      (startsWith platform c%"win" = false ∧ ∃ e, f.fileOutput = .error e)) :
    libArch platform f = [] ∧ isBits platform f n = none := by
  have h0 : libArch platform f = [] := by
    unfold libArch getArch
    rcases h with ⟨h, h'⟩ | ⟨h, e, h'⟩
    · rw [if_neg (by rw [h]; decide), if_pos h']
    · rw [if_neg (by rw [h]; decide)]
      split
      · rename_i x hx
        revert hx
        split
        · intro hx; cases hx
        · rw [h']; intro hx; cases hx
      · rfl
  exact ⟨h0, by unfold isBits; rw [if_pos h0]⟩

/-- A universal binary on macOS. -/
example : ∃ f : LibFile, f.fileOutput = .ok c%"l.dylib (for architecture x86_64): Mach-O" ∧
    isBits c%"darwin" f 64 = some true ∧ isBits c%"darwin" f 32 = some false :=
  ⟨⟨.error .osError, .ok c%"l.dylib (for architecture x86_64): Mach-O"⟩, rfl, by decide, by decide⟩

/-! ### C57 -/

/-- C57: after a call that succeeded, `init` and `auto_init` raise `RuntimeError` and change nothing, for
ever; creating parsers changes nothing either. -/
theorem C57_once (i : Interp) (g : Globals) (h : g.parserInit = true) (os : List InitOp) :
    initRun i g os = g ∧ ∀ o, initStep i (initRun i g os) o = (match o with | .parser => .ok () | _ => .error .runtimeError, g) := by
  have step : ∀ o, initStep i g o = (match o with | .parser => .ok () | _ => .error .runtimeError, g) := by
    intro o
    cases o with
    | init t m => simp [initStep, initCall, h]
    | auto t m os' => simp only [initStep, autoInit]; split <;> simp [initCall, h]
    | parser => simp [initStep, h]
  have run : initRun i g os = g := by
    induction os with
    | nil => rfl
    | cons o os ih =>
      unfold initRun
      rw [step o]
      exact ih
  exact ⟨run, by rw [run]; exact step⟩

/-- Both flags always agree, and are set exactly by a call that succeeded. -/
theorem initStep_flag (i : Interp) (g : Globals) (o : InitOp) (h : g.parserInit = g.libInit) :
    (initStep i g o).2.parserInit = (initStep i g o).2.libInit ∧
    ((initStep i g o).1 = .ok () → (initStep i g o).2.parserInit = true) ∧
    (∀ e, (initStep i g o).1 = .error e → e = .runtimeError ∧ (initStep i g o).2 = g ∧ g.parserInit = true) := by
  have ic : ∀ t m, (initCall i g t m).2.parserInit = (initCall i g t m).2.libInit ∧
      ((initCall i g t m).1 = .ok () → (initCall i g t m).2.parserInit = true) ∧
      (∀ e, (initCall i g t m).1 = .error e → e = .runtimeError ∧ (initCall i g t m).2 = g ∧ g.parserInit = true) := by
    intro t m
    unfold initCall
    rw [← h]
    cases hg : g.parserInit with
    | true => simp [← h, hg]
    | false => simp
  cases o with
  | init t m => exact ic t m
  | auto t m os => simp only [initStep, autoInit]; split <;> exact ic _ _
  | parser =>
    simp only [initStep]
    by_cases hg : g.parserInit = true
    · simp [hg]; rw [← h, hg]
    · rw [if_neg hg]
      simp only [autoInit]
      split <;> exact ic _ _

/-- C57: among the calls of `init` and `auto_init` of any program, at most one succeeds: if a call
succeeds, every later one raises `RuntimeError`, and the tables stay those set by that call. -/
theorem C57_at_most_once (i : Interp) (before between : List InitOp) (o o' : InitOp) (ho' : o' ≠ .parser)
    (hok : (initStep i (initRun i .start before) o).1 = .ok ()) :
    initStep i (initRun i (initStep i (initRun i .start before) o).2 between) o' =
      (.error .runtimeError, (initStep i (initRun i .start before) o).2) := by
  have inv : ∀ (os : List InitOp) (g : Globals), g.parserInit = g.libInit → (initRun i g os).parserInit = (initRun i g os).libInit := by
    intro os
    induction os with
    | nil => intro g h; exact h
    | cons x os ih => intro g h; exact ih _ (initStep_flag i g x h).1
  have h1 := inv before .start rfl
  have h2 := (initStep_flag i _ o h1).2.1 hok
  have := (C57_once i _ h2 between).2 o'
  rw [this]
  cases o' with
  | parser => exact (ho' rfl).elim
  | _ => rfl

theorem dget_dupdate (e : Dict Str (Option Str)) : ∀ (d : Dict Str (Option Str)) (k : Str), DNodup e →
    dget (dupdate d e) k = (dget e k).or (dget d k) := by
  induction e with
  | nil => intro d k _; rfl
  | cons p e ih =>
    intro d k hn
    obtain ⟨k0, v0⟩ := p
    have hn' : k0 ∉ dkeys e ∧ DNodup e := by
      simpa [DNodup, dkeys] using hn
    show dget (dupdate (dset d k0 v0) e) k = _
    rw [ih _ k hn'.2, dget_cons]
    by_cases hk : k0 = k
    · subst hk
      rw [dget_none_iff.2 hn'.1]
      simp
    · rw [if_neg hk, dget_dset, if_neg hk]

theorem dkeys_winMap (l : Dict Str (Option Str)) : dkeys (l.map winClass) = dkeys l := by
  unfold dkeys
  rw [List.map_map]
  rfl

theorem dget_winMap (l : Dict Str (Option Str)) (k : Str) :
    dget (l.map winClass) k = (dget l k).map (fun v => (dget backendWinTypes k).getD v) := by
  induction l with
  | nil => rfl
  | cons p l ih =>
    rw [List.map_cons, dget_cons, dget_cons]
    by_cases hk : p.1 = k
    · subst hk
      rw [if_pos rfl, if_pos (show (winClass p).1 = p.1 from rfl)]
      rfl
    · rw [if_neg hk, if_neg (show ¬ (winClass p).1 = k from hk)]
      exact ih

/-- The class of a type given to `init`: the one given, except that on Windows `__int64`,
`unsigned __int64` and `HRESULT`, and from Python 3.12 on `time_t`, have fixed ones. -/
def classOf (i : Interp) (k : Str) (given : Option Str) : Option Str :=
  if i.py312 ∧ k = c%"time_t" then some c%"c_time_t"
  else if i.win32 then
    if k = c%"__int64" then some c%"c_longlong"
    else if k = c%"unsigned __int64" then some c%"c_ulonglong"
    else if k = c%"HRESULT" then some c%"HRESULT"
    else given
  else given

/-- C57: the types given to the call of `init` that succeeds are known to the parser and to the ctypes
backend; the standard types not given are kept. -/
theorem C57_types (i : Interp) (g : Globals) (types : Dict Str (Option Str)) (mods : List Str) (hn : DNodup types)
    (h : (initCall i g types mods).1 = .ok ()) :
    (initCall i g types mods).2.extraTypes = dkeys types ∧ (initCall i g types mods).2.modifiers = mods ∧
    ∃ table, (initCall i g types mods).2.ctypes = some table ∧
      (∀ k v, (k, v) ∈ types → dget table k = some (classOf i k v)) ∧
      (∀ k p, k ∉ dkeys types → k ≠ c%"time_t" → (k, p) ∈ ctypesTable → dget table k = some (some p)) := by
  have hg : (g.parserInit || g.libInit) = false := by
    unfold initCall at h
    split at h
    · cases h
    · rename_i hg; simpa using hg
  unfold initCall
  simp only [hg, Bool.false_eq_true, if_false]
  refine ⟨trivial, trivial, _, rfl, ?_, ?_⟩
  all_goals
    have hnc : DNodup (completeTypes i types) := by
      unfold completeTypes
      simp only
      have h1 : DNodup (if i.win32 = true then types.map winClass else types) := by
        split
        · unfold DNodup; rw [dkeys_winMap]; exact hn
        · exact hn
      split
      · exact h1.dset _ _
      · exact h1
    have hget : ∀ k, dget (completeTypes i types) k = if i.py312 ∧ k = c%"time_t" then some (some c%"c_time_t") else
        (dget types k).map (fun v => if i.win32 then (dget backendWinTypes k).getD v else v) := by
      intro k
      have h0 : dget (if i.win32 = true then types.map winClass else types) k =
          (dget types k).map (fun v => if i.win32 then (dget backendWinTypes k).getD v else v) := by
        cases hw : i.win32 with
        | true => simp only [if_true]; exact dget_winMap types k
        | false => simp
      unfold completeTypes
      simp only
      cases hp : i.py312 with
      | true =>
        simp only [if_true, true_and]
        rw [dget_dset, h0]
        by_cases hk : k = c%"time_t"
        · rw [if_pos hk.symm, if_pos hk]
        · rw [if_neg (fun e => hk e.symm), if_neg hk]
      | false =>
        simp only [Bool.false_eq_true, if_false, false_and]
        exact h0
  · intro k v hm
    rw [dget_dupdate _ _ _ hnc, hget k, dget_of_mem hn hm]
    unfold classOf
    by_cases ht : i.py312 = true ∧ k = c%"time_t"
    · rw [if_pos ht, if_pos ht]; rfl
    · rw [if_neg ht, if_neg ht]
      cases hw : i.win32 with
      | false => simp
      | true =>
        simp only [if_true]
        by_cases h1 : k = c%"__int64"
        · subst h1; rfl
        · by_cases h2 : k = c%"unsigned __int64"
          · subst h2; rfl
          · by_cases h3 : k = c%"HRESULT"
            · subst h3; rfl
            · rw [if_neg h1, if_neg h2, if_neg h3]
              have : dget backendWinTypes k = none := by
                simp [backendWinTypes, dget, Ne.symm h1, Ne.symm h2, Ne.symm h3]
              rw [this]; rfl
  · intro k p hk ht hm
    rw [dget_dupdate _ _ _ hnc, hget k, dget_none_iff.2 hk, if_neg (fun h => ht h.2)]
    have hs : DNodup standardTypes := by unfold DNodup; decide
    exact dget_of_mem hs (List.mem_map.2 ⟨_, hm, rfl⟩)

/-- C57: a type with a single word as name given to `init` is fundamental for the parser. -/
theorem C57_fundamental (i : Interp) (g : Globals) (types : Dict Str (Option Str)) (mods : List Str)
    (h : (initCall i g types mods).1 = .ok ()) (k : Str) (hk : k ∈ dkeys types) (hw : splitWs k = [k]) :
    isFund ⟨i.py312, i.win32, (initCall i g types mods).2.extraTypes⟩ k = true := by
  have hg : (g.parserInit || g.libInit) = false := by
    unfold initCall at h
    split at h
    · cases h
    · rename_i hg; simpa using hg
  unfold initCall
  simp only [hg, Bool.false_eq_true, if_false]
  unfold isFund
  split
  · rfl
  · rw [hw]
    simp [fundNames, hk]

/-- A program on Linux: the constructor of a parser initialises, `init` then raises. -/
example : (initStep ⟨false, true⟩ Globals.start .parser).1 = .ok () ∧
    (initStep ⟨false, true⟩ (initRun ⟨false, true⟩ Globals.start [.parser]) (.init [(c%"myint", some c%"c_int")] [])).1 = .error .runtimeError :=
  ⟨rfl, rfl⟩

example : (initCall ⟨false, true⟩ Globals.start [(c%"myint", some c%"c_int")] [c%"__foo"]).1 = .ok () ∧
    DNodup ([(c%"myint", some c%"c_int")] : Dict Str (Option Str)) ∧ splitWs c%"myint" = [c%"myint"] := ⟨rfl, by unfold DNodup; decide, by decide⟩

/-- C57 for `auto_init` on Windows, or with `os='win32'`: besides what is given, the parser knows the type `__int64` and the words that the
Microsoft compiler has in declarations. -/
theorem C57_windows (i : Interp) (g : Globals) (types : Dict Str (Option Str)) (mods : List Str) (os : Option Str)
    (h : os = some c%"win32" ∨ i.win32 = true) (hok : (autoInit i g types mods os).1 = .ok ()) :
    (∀ t, t ∈ (autoInit i g types mods os).2.extraTypes ↔ t ∈ dkeys types ∨ t = c%"__int64") ∧
    (∀ m, m ∈ (autoInit i g types mods os).2.modifiers ↔ m ∈ mods ∨
      m ∈ [c%"__based", c%"__declspec", c%"__fastcall", c%"__restrict", c%"__sptr", c%"__uptr", c%"__w64", c%"__unaligned",
        c%"__nullterminated"]) := by
  simp only [autoInit, if_pos h, initCall] at hok ⊢
  split at hok
  · cases hok
  · rename_i hn
    rw [if_neg hn]
    refine ⟨fun t => ?_, fun m => by simp [winModifiers]⟩
    show t ∈ dkeys (dset types c%"__int64" none) ↔ _
    have : ∀ d : Dict Str (Option Str), t ∈ dkeys (dset d c%"__int64" none) ↔ t ∈ dkeys d ∨ t = c%"__int64" := by
      intro d
      induction d with
      | nil => simp [dset, dkeys]
      | cons p d ih =>
        simp only [dset]
        split
        · rename_i e; simp only [dkeys, List.map_cons, List.mem_cons, e]; grind
        · simp only [dkeys, List.map_cons, List.mem_cons] at ih ⊢; rw [ih]; grind
    exact this types

example : (autoInit ⟨true, true⟩ Globals.start [] [c%"__foo"] none).1 = .ok () := rfl

/-- C57: with `os='win32'` on another system `__int64` is entered as `None`, not as a type. -/
theorem C57_counterexample_int64 : ∃ table, (autoInit ⟨false, true⟩ Globals.start [] [] (some c%"win32")).2.ctypes = some table ∧
    dget table c%"__int64" = some none :=
  ⟨_, rfl, by decide⟩

end Pyclib
