import Verif.Proof.Objects
/-! The numbering: new lists, each with its label. -/
namespace Pyclib
open Spec

/-- Brackets are a list with one element. -/
def ArrWf (m : CMod) : Prop := ∀ d, m = .arr d → ∃ n, d = [n]

/-- The same at every depth. -/
def DeepArr (t : CType) : Prop := ∀ u, Inside u t → ∀ m ∈ u.mods, ArrWf m

theorem DeepArr.param {t : CType} (h : DeepArr t) {ps : List Param} {p : Param} (hf : .fn ps ∈ t.mods) (hp : p ∈ ps) :
    DeepArr p.2.1 := fun u hu => h u (.param t u ps p hf hp hu)

theorem DeepMods.arr {t : CType} (h : DeepMods t) : DeepArr t := by
  intro u hu m hm d e
  have := h u hu m hm
  subst e
  exact this

theorem idsOf_append (a b : List CMod) : idsOf (a ++ b) = idsOf a ++ idsOf b := by
  unfold idsOf; exact List.filterMap_append

/-- The numbering of the modifiers `ms` of a type labelled `o` gives `ms'`; the lists grow from `l` to
`l'`. -/
structure NumOk (o : Owner) (l l' : Lists Owner) (ms ms' : List CMod) : Prop where
  ext : l <+: l'
  range : ∀ i ∈ idsOf ms', (l.length : Int) ≤ i ∧ i < l'.length
  nodup : (idsOf ms').Nodup
  num : ∀ H, l' <+: H → NumMods (dimAt H) ms ms'
  own : ∀ H, l' <+: H → ∀ i ∈ idsOf ms', ownAt H i = o
  inside : ∀ H, l' <+: H → ∀ ps p u, .fn ps ∈ ms' → p ∈ ps → Inside u p.2.1 →
    (idsOf u.mods).Nodup ∧ ∀ i ∈ idsOf u.mods, ownAt H i = .shared

/-- The same for parameters. -/
structure ParOk (l l' : Lists Owner) (ps ps' : List Param) : Prop where
  ext : l <+: l'
  num : ∀ H, l' <+: H → NumParams (dimAt H) ps ps'
  inside : ∀ H, l' <+: H → ∀ p u, p ∈ ps' → Inside u p.2.1 →
    (idsOf u.mods).Nodup ∧ ∀ i ∈ idsOf u.mods, ownAt H i = .shared

theorem NumOk.inType {l l' : Lists Owner} {ms ms' : List CMod} (h : NumOk .shared l l' ms ms') {H : Lists Owner}
    (hH : l' <+: H) {t u : CType} (ht : t.mods = ms') (hu : Inside u t) :
    (idsOf u.mods).Nodup ∧ ∀ i ∈ idsOf u.mods, ownAt H i = .shared := by
  cases hu with
  | refl => rw [ht]; exact ⟨h.nodup, h.own H hH⟩
  | param _ _ ps p hf hp hi => exact h.inside H hH ps p u (by rw [← ht]; exact hf) hp hi

theorem numOk_cons {o : Owner} {l l1 l2 : Lists Owner} {m m' : CMod} {ms ms' : List CMod}
    (h1 : NumOk o l l1 [m] [m']) (h2 : NumOk o l1 l2 ms ms') : NumOk o l l2 (m :: ms) (m' :: ms') := by
  have e : idsOf (m' :: ms') = idsOf [m'] ++ idsOf ms' := idsOf_append [m'] ms'
  have hl1 := h1.ext.length_le
  have hl2 := h2.ext.length_le
  refine ⟨h1.ext.trans h2.ext, ?_, ?_, ?_, ?_, ?_⟩
  · intro i hi
    rw [e, List.mem_append] at hi
    rcases hi with hi | hi
    · have := h1.range i hi; omega
    · have := h2.range i hi; omega
  · rw [e, List.nodup_append]
    refine ⟨h1.nodup, h2.nodup, fun a ha b hb hab => ?_⟩
    have := h1.range a ha
    have := h2.range b hb
    omega
  · intro H hH
    exact (h1.num H (h2.ext.trans hH)).append (h2.num H hH)
  · intro H hH i hi
    rw [e, List.mem_append] at hi
    rcases hi with hi | hi
    · exact h1.own H (h2.ext.trans hH) i hi
    · exact h2.own H hH i hi
  · intro H hH ps p u hf hp hi
    rw [List.mem_cons] at hf
    rcases hf with hf | hf
    · exact h1.inside H (h2.ext.trans hH) ps p u (by simp [hf]) hp hi
    · exact h2.inside H hH ps p u hf hp hi

theorem getElem?_prefix {α : Type} {l H : List α} (h : l <+: H) {n : Nat} {a : α} (he : l[n]? = some a) : H[n]? = some a := by
  obtain ⟨z, rfl⟩ := h
  rw [List.getElem?_append_left (List.getElem?_eq_some_iff.1 he).1]
  exact he

mutual
theorem numMods_ok (o : Owner) : ∀ (ms : List CMod) (l : Lists Owner), (∀ m ∈ ms, ArrWf m) →
    (∀ ps p, .fn ps ∈ ms → p ∈ ps → DeepArr p.2.1) →
    NumOk o l (numMods .shared o ms l).2 ms (numMods .shared o ms l).1
  | [], l, _, _ => by
    simp only [numMods]
    exact ⟨List.prefix_refl l, by simp [idsOf], by simp [idsOf], fun _ _ => .nil, by simp [idsOf],
      fun _ _ _ _ _ h => by cases h⟩
  | m :: ms, l, hm, hp => by
    have h1 := numMod_ok o m l (hm m (by simp)) (fun ps p h => hp ps p (by simp [h]))
    have h2 := numMods_ok o ms (numMod .shared o m l).2 (fun m h => hm m (by simp [h])) (fun ps p h => hp ps p (by simp [h]))
    simp only [numMods]
    exact numOk_cons h1 h2
theorem numMod_ok (o : Owner) : ∀ (m : CMod) (l : Lists Owner), ArrWf m →
    (∀ ps p, m = .fn ps → p ∈ ps → DeepArr p.2.1) →
    NumOk o l (numMod .shared o m l).2 [m] [(numMod .shared o m l).1]
  | .sym s, l, _, _ => by
    simp only [numMod]
    exact ⟨List.prefix_refl l, by simp [idsOf], by simp [idsOf], fun _ _ => .sym _ _ _ .nil, by simp [idsOf],
      fun _ _ _ _ _ h => by simp at h⟩
  | .arr d, l, hm, _ => by
    obtain ⟨n, rfl⟩ := hm d rfl
    simp only [numMod]
    have hi : ∀ x, x ∈ idsOf [.arr [some (l.length : Int)]] ↔ x = l.length := by simp [idsOf]
    have hg : ∀ H, (l ++ [(o, n)]) <+: H → H[l.length]? = some (o, n) := fun H h => getElem?_prefix h (by simp)
    refine ⟨List.prefix_append _ _, ?_, by simp [idsOf], ?_, ?_, fun _ _ _ _ _ h => by simp at h⟩
    · intro i h; rw [hi] at h; subst h; simp; omega
    · intro H hH
      have : dimAt H l.length = n := by simp [dimAt, hg H hH]
      have h2 := NumMods.arr (dim := dimAt H) (l.length : Int) [] [] .nil
      rw [this] at h2
      exact h2
    · intro H hH i h
      rw [hi] at h; subst h
      simp [ownAt, hg H hH]
  | .fn ps, l, _, hp => by
    simp only [numMod]
    have h := numParams_ok ps l (fun p h => hp ps p rfl h)
    refine ⟨h.ext, by simp [idsOf], by simp [idsOf], fun H hH => .fn _ _ _ _ (h.num H hH) .nil, by simp [idsOf], ?_⟩
    intro H hH ps' p u hf hp' hi
    simp at hf
    subst hf
    exact h.inside H hH p u hp' hi
theorem numParams_ok : ∀ (ps : List Param) (l : Lists Owner), (∀ p ∈ ps, DeepArr p.2.1) →
    ParOk l (numParams .shared ps l).2 ps (numParams .shared ps l).1
  | [], l, _ => by
    simp only [numParams]
    exact ⟨List.prefix_refl l, fun _ _ => .nil, fun _ _ _ _ h => by cases h⟩
  | (n, ⟨s, ms, q⟩, d) :: ps, l, hp => by
    have hd := hp (n, ⟨s, ms, q⟩, d) (by simp)
    have h1 := numMods_ok .shared ms l (fun m h => hd _ (.refl _) m h) (fun ps p h1 h2 => hd.param h1 h2)
    have h2 := numParams_ok ps (numMods .shared .shared ms l).2 (fun p h => hp p (by simp [h]))
    simp only [numParams]
    refine ⟨h1.ext.trans h2.ext,
      fun H hH => .cons _ _ _ _ _ _ _ _ (h1.num H (h2.ext.trans hH)) (h2.num H hH), ?_⟩
    intro H hH p u hp' hi
    rw [List.mem_cons] at hp'
    rcases hp' with rfl | hp'
    · exact h1.inType (h2.ext.trans hH) rfl hi
    · exact h2.inside H hH p u hp' hi
end

/-- A numbered type. -/
structure TypeOk (H : Lists Owner) (o : Owner) (t t' : CType) : Prop where
  num : Num (dimAt H) t t'
  nodup : (idsOf t'.mods).Nodup
  own : ∀ i ∈ idsOf t'.mods, ownAt H i = o
  inside : ∀ ps p u, .fn ps ∈ t'.mods → p ∈ ps → Inside u p.2.1 →
    (idsOf u.mods).Nodup ∧ ∀ i ∈ idsOf u.mods, ownAt H i = .shared

mutual
theorem numMods_ext (o : Owner) : ∀ (ms : List CMod) (l : Lists Owner), l <+: (numMods .shared o ms l).2
  | [], l => by simp only [numMods]; exact List.prefix_refl l
  | m :: ms, l => by simp only [numMods]; exact (numMod_ext o m l).trans (numMods_ext o ms _)
theorem numMod_ext (o : Owner) : ∀ (m : CMod) (l : Lists Owner), l <+: (numMod .shared o m l).2
  | .sym s, l => by simp only [numMod]; exact List.prefix_refl l
  | .arr d, l => by
    rcases d with _ | ⟨n, _ | ⟨_, _⟩⟩
    · simp only [numMod]; exact List.prefix_refl l
    · simp only [numMod]; exact List.prefix_append _ _
    · simp only [numMod]; exact List.prefix_refl l
  | .fn ps, l => by simp only [numMod]; exact numParams_ext ps l
theorem numParams_ext : ∀ (ps : List Param) (l : Lists Owner), l <+: (numParams .shared ps l).2
  | [], l => by simp only [numParams]; exact List.prefix_refl l
  | (n, ⟨s, ms, q⟩, d) :: ps, l => by simp only [numParams]; exact (numMods_ext .shared ms l).trans (numParams_ext ps _)
end

theorem numType_ext (o : Owner) (t : CType) (l : Lists Owner) : l <+: (numType .shared o t l).2 := numMods_ext o t.mods l

theorem numType_ok (o : Owner) (t : CType) (l : Lists Owner) (hd : DeepArr t) (H : Lists Owner)
    (hH : (numType .shared o t l).2 <+: H) : TypeOk H o t (numType .shared o t l).1 := by
  have h := numMods_ok o t.mods l (fun m h => hd _ (.refl _) m h) (fun ps p h1 h2 => hd.param h1 h2)
  exact ⟨⟨rfl, rfl, h.num H hH⟩, h.nodup, h.own H hH, h.inside H hH⟩

/-- What becomes of an entry of the table of types. -/
def TypeEnt (H : Lists Owner) (v v' : DefVal) : Prop :=
  match v with
  | .type t => ∃ t', v' = .type t' ∧ (DeepArr t → TypeOk H .shared t t')
  | _ => v' = v

theorem numTypes_ok : ∀ (d : Dict Str DefVal) (l : Lists Owner),
    l <+: (numTypes' .shared d l).2 ∧ ∀ H, (numTypes' .shared d l).2 <+: H → ∀ n,
      (dget d n = none ∧ dget (numTypes' .shared d l).1 n = none) ∨
      ∃ v v', dget d n = some v ∧ dget (numTypes' .shared d l).1 n = some v' ∧ TypeEnt H v v'
  | [], l => ⟨List.prefix_refl l, fun H _ n => .inl ⟨rfl, rfl⟩⟩
  | (k, v) :: d, l => by
    cases v with
    | type t =>
      obtain ⟨g2, h2⟩ := numTypes_ok d (numType .shared .shared t l).2
      refine ⟨(numType_ext .shared t l).trans g2, fun H hH n => ?_⟩
      simp only [numTypes'] at hH ⊢
      by_cases hk : k = n
      · subst hk
        refine .inr ⟨_, _, by simp only [dget, ↓reduceIte]; rfl, by simp only [dget, ↓reduceIte]; rfl, ?_⟩
        exact ⟨_, rfl, fun hd => numType_ok _ t l hd H (g2.trans hH)⟩
      · simp only [dget, hk, ↓reduceIte]
        exact h2 H hH n
    | _ =>
      obtain ⟨g2, h2⟩ := numTypes_ok d l
      refine ⟨g2, fun H hH n => ?_⟩
      simp only [numTypes'] at hH ⊢
      by_cases hk : k = n
      · subst hk
        refine .inr ⟨_, _, by simp only [dget, ↓reduceIte]; rfl, by simp only [dget, ↓reduceIte]; rfl, ?_⟩
        exact rfl
      · simp only [dget, hk, ↓reduceIte]
        exact h2 H hH n

/-- What becomes of the members of a struct or union, from number `j` on. -/
def MemsOk (H : Lists Owner) (lab : Nat → Owner) (j : Nat) (ms ms' : List Member) : Prop :=
  ms'.length = ms.length ∧ ∀ i m, ms[i]? = some m → ∃ t', ms'[i]? = some { m with type := t' } ∧
    (DeepArr m.type → TypeOk H (lab (j + i)) m.type t')

theorem numMembers_ok (lab : Nat → Owner) : ∀ (ms : List Member) (j : Nat) (l : Lists Owner),
    l <+: (numMembers .shared lab j ms l).2 ∧ ∀ H, (numMembers .shared lab j ms l).2 <+: H →
      MemsOk H lab j ms (numMembers .shared lab j ms l).1
  | [], j, l => ⟨List.prefix_refl l, fun H _ => ⟨rfl, fun i m h => by simp at h⟩⟩
  | m :: ms, j, l => by
    obtain ⟨g2, h2⟩ := numMembers_ok lab ms (j + 1) (numType .shared (lab j) m.type l).2
    refine ⟨(numType_ext _ m.type l).trans g2, fun H hH => ?_⟩
    simp only [numMembers] at hH ⊢
    obtain ⟨h3, h4⟩ := h2 H hH
    refine ⟨by simp [h3], fun i m' hi => ?_⟩
    cases i with
    | zero =>
      simp at hi
      subst hi
      exact ⟨_, rfl, fun hd => numType_ok _ m.type l hd H (g2.trans hH)⟩
    | succ i =>
      obtain ⟨t', h5, h6⟩ := h4 i m' (by simpa using hi)
      exact ⟨t', by simpa using h5, by rw [show j + (i + 1) = j + 1 + i by omega]; exact h6⟩

/-- What becomes of a struct or union. -/
def CompEnt (H : Lists Owner) (lab : Nat → Owner) (v v' : DefVal) : Prop :=
  match v with
  | .compound ms pack => ∃ ms', v' = .compound ms' pack ∧ MemsOk H lab 0 ms ms'
  | _ => v' = v

theorem numComps_ok (lab : Str → Nat → Owner) : ∀ (d : Dict Str DefVal) (l : Lists Owner),
    l <+: (numComps .shared lab d l).2 ∧ ∀ H, (numComps .shared lab d l).2 <+: H → ∀ n,
      (dget d n = none ∧ dget (numComps .shared lab d l).1 n = none) ∨
      ∃ v v', dget d n = some v ∧ dget (numComps .shared lab d l).1 n = some v' ∧ CompEnt H (lab n) v v'
  | [], l => ⟨List.prefix_refl l, fun H _ n => .inl ⟨rfl, rfl⟩⟩
  | (k, v) :: d, l => by
    cases v with
    | compound ms pack =>
      obtain ⟨g1, h1⟩ := numMembers_ok (lab k) ms 0 l
      obtain ⟨g2, h2⟩ := numComps_ok lab d (numMembers .shared (lab k) 0 ms l).2
      refine ⟨g1.trans g2, fun H hH n => ?_⟩
      simp only [numComps] at hH ⊢
      by_cases hk : k = n
      · subst hk
        refine .inr ⟨_, _, by simp only [dget, ↓reduceIte]; rfl, by simp only [dget, ↓reduceIte]; rfl, ?_⟩
        exact ⟨_, rfl, h1 H (g2.trans hH)⟩
      · simp only [dget, hk, ↓reduceIte]
        exact h2 H hH n
    | _ =>
      obtain ⟨g2, h2⟩ := numComps_ok lab d l
      refine ⟨g2, fun H hH n => ?_⟩
      simp only [numComps] at hH ⊢
      by_cases hk : k = n
      · subst hk
        refine .inr ⟨_, _, by simp only [dget, ↓reduceIte]; rfl, by simp only [dget, ↓reduceIte]; rfl, ?_⟩
        exact rfl
      · simp only [dget, hk, ↓reduceIte]
        exact h2 H hH n

theorem numTops_ok (lab : Nat → Owner) : ∀ (ts : List CType) (k : Nat) (l : Lists Owner),
    l <+: (numTops .shared lab k ts l).2 ∧ ∀ H, (numTops .shared lab k ts l).2 <+: H →
      ∀ i t, ts[i]? = some t → ∃ t', (numTops .shared lab k ts l).1[i]? = some t' ∧ (DeepArr t → TypeOk H (lab (k + i)) t t')
  | [], k, l => ⟨List.prefix_refl l, fun H _ i t h => by simp at h⟩
  | t :: ts, k, l => by
    obtain ⟨g2, h2⟩ := numTops_ok lab ts (k + 1) (numType .shared (lab k) t l).2
    refine ⟨(numType_ext _ t l).trans g2, fun H hH i t' hi => ?_⟩
    simp only [numTops] at hH ⊢
    cases i with
    | zero =>
      simp at hi
      subst hi
      exact ⟨_, rfl, fun hd => numType_ok _ t l hd H (g2.trans hH)⟩
    | succ i =>
      obtain ⟨t', h5, h6⟩ := h2 H hH i t' (by simpa using hi)
      exact ⟨t', by simpa using h5, by rw [show k + (i + 1) = k + 1 + i by omega]; exact h6⟩

end Pyclib
