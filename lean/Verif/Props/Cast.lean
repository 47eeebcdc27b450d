import Verif.Props.Number
import Verif.Spec.Cast
/-
C91: `cast_to`.
-/
namespace Pyclib
open Spec

theorem addresses_of {conv : Nat → Except PyErr Addr} {obj : CastObj} {a : Addr} (h : Addresses obj a) : addrOf conv obj = .ok a := by
  cases h <;> rfl

section
variable {cfg : Cfg} {junk : Str → Str} {s : Store DefVal} {types : Dict Str Str} {exports : Str → Bool} {abi : Abi} {z : CtSizes}
  {sgn : Str → Option Bool}

theorem special_cls {b p : Str} (h : specialPtr b = some p) : isPtrCls (.prim p) = true := by
  simp only [specialPtr] at h
  split at h
  · cases h; decide
  · split at h
    · cases h; decide
    · split at h <;> cases h; decide

theorem ptr_isPtr {S : Dict Str Nat} {c : Cls} {w : CTy} (h : Mirrors types S c (.ptr w)) : isPtrCls c = true := by
  cases h with
  | special b p h => exact special_cls h
  | ptr => rfl
  | fnptr => rfl

theorem noPtr_cls (hl : LibOk cfg types s) (hA : AbiMatch abi types z) (hS : SignMatch types sgn) {S : Dict Str Nat} {c : Cls} {v : CTy}
    (hv : NoPointer abi sgn v) (h : Mirrors types S c v) : isPtrCls c = false := by
  cases hv with
  | int _ sz sg hi =>
    obtain ⟨p, al, rfl, h1, _⟩ := intTy_cls hl hA hS hi h
    have := dget_some_mem h1
    simp only [isPtrCls, decide_eq_false_iff_not]
    intro hp
    simp only [List.mem_cons, List.not_mem_nil, or_false] at hp
    rcases hp with rfl | rfl | rfl <;> cases h1
  | struct tag =>
    generalize hx : CTy.base (c%"struct " ++ tag) = x at h
    cases h with
    | void => simp at hx
    | prim _ p' h' =>
      cases hx
      have := hl.simple false tag
      rw [show dget types (c%"struct " ++ tag) = none from this] at h'; cases h'
    | enum tag => simp at hx
    | struct => rfl
    | union => rfl
    | _ => cases hx
  | union tag =>
    generalize hx : CTy.base (c%"union " ++ tag) = x at h
    cases h with
    | void => simp at hx
    | prim _ p' h' =>
      cases hx
      have := hl.simple true tag
      rw [show dget types (c%"union " ++ tag) = none from this] at h'; cases h'
    | enum tag => simp at hx
    | struct => rfl
    | union => rfl
    | _ => cases hx
  | arr n v =>
    obtain ⟨d, rfl, _⟩ := arr_cls h
    rfl

/-- Reading through a pointer. -/
theorem deref_right (hs : TablesWf cfg junk s) (hl : LibOk cfg types s) (ho : OneTag s) (hA : AbiMatch abi types z) (hS : SignMatch types sgn)
    {st : LState CtObj CtState} (hi : LibInv cfg types s exports st) {w w' : CTy} {c : Cls} {sz al wsz b o o' i : Nat} {sg : Bool} {p : List Nat}
    {m : Mem Bytes} {r : Int} (hc : Mirrors types st.b.structs c w) (hly : Layout cfg s abi false w sz al) (hp : PartAt cfg s abi w p o' w')
    (hw : IntTy abi sgn w' wsz sg) (hx : Holds wsz sg (m.cell b) (o + i * sz + o') r) :
    ∃ K, ∀ k, K ≤ k → derefNum z st.b.classes k m (.ptr c, .at b o) i p = some r := by
  obtain ⟨K1, g1⟩ := (layout_right hs hl ho hA hi hly).2 c hc
  have hx' : Holds wsz sg (fun j => m.cell b (o + i * sz + j)) o' r := by
    unfold Holds at hx ⊢
    simpa only [Nat.add_assoc] using hx
  obtain ⟨K2, g2⟩ := read_obj hs hl ho hA hS hi hc hly hp hw hx'
  refine ⟨max K1 K2, fun k hk => ?_⟩
  have h2 := g2 k (by omega)
  simp only [objBytes, g1 k (by omega)] at h2
  simp only [derefNum, g1 k (by omega)]
  rw [← h2]
  congr 1
  simp [bytesFrom]

/-- A cast to a class that mirrors a C type. -/
theorem cast_right (hs : TablesWf cfg junk s) (hl : LibOk cfg types s) (ho : OneTag s) (hA : AbiMatch abi types z) (hS : SignMatch types sgn)
    {st : LState CtObj CtState} (hi : LibInv cfg types s exports st) (conv : Nat → Except PyErr Addr) {v : CTy} {c : Cls} (hc : Mirrors types st.b.structs c v)
    (obj : CastObj) (e : CtEnv) (n : Nat) : ∃ res, castTo e n conv st.b obj (.cls c) = (res, st.b) ∧
      CastRight types st.b.structs cfg s abi sgn v obj res (fun m p i path r => ∃ K, ∀ k, K ≤ k → derefNum z st.b.classes k m p i path = some r) := by
  cases ha : addrOf conv obj with
  | error x =>
    refine ⟨.error x, by simp only [castTo, arrTyp, ha], ?_, ?_⟩
    · intro w a _ h; rw [addresses_of h] at ha; cases ha
    · intro a _ h; rw [addresses_of h] at ha; cases ha
  | ok a0 =>
    simp only [castTo, arrTyp, ha]
    refine ⟨if isPtrCls c then .ok (c, a0) else .error .typeError, by split <;> rfl, ?_, ?_⟩
    · intro w a hv h
      rw [addresses_of h] at ha; cases ha
      subst hv
      rw [if_pos (ptr_isPtr hc)]
      refine ⟨c, rfl, hc, ?_⟩
      intro hpt sz al b o hly hab m i p o' w' wsz sg r hpa hint hh
      subst hab
      obtain ⟨c', rfl, hc'⟩ := pointed_cls hpt hc
      exact deref_right hs hl ho hA hS hi hc' hly hpa hint hh
    · intro a hv h
      rw [noPtr_cls hl hA hS hv hc]
      rfl

/-- C91 (partial: `LibOk`, fair uses; arrays, pointers and `None`; what is read: integers): after any use of the library, `cast_to(lib, obj, c)` with the
class of a pointer type gives a pointer of that class with the address of `obj`, through which Python reads the numbers that are in memory there; the
class of another type raises `TypeError`. -/
theorem C91_class_partial {A : Type} (hs : TablesWf cfg junk s) (hl : LibOk cfg types s) (hT : PtrTable types) (ho : OneTag s)
    (hA : AbiMatch abi types z) (hS : SignMatch types sgn) (exports : Str → Bool) (conv : Nat → Except PyErr Addr) :
    ∃ N, ∀ n, N ≤ n → ∀ us : List (Use A), (∀ u ∈ us, FairUse cfg types s u) →
      let st := (useAll (hdrEnv cfg types s) n (hdrLib cfg types s n exports false) (hdrStart s) us).2.b
      ∀ c v obj, Mirrors types st.structs c v → ∃ res, castTo (hdrEnv cfg types s) n conv st obj (.cls c) = (res, st) ∧
        CastRight types st.structs cfg s abi sgn v obj res (fun m p i path r => ∃ K, ∀ k, K ≤ k → derefNum z st.classes k m p i path = some r) := by
  obtain ⟨N, hb, hp⟩ := use_bound hs hl
  refine ⟨N, fun n hn us hu => ?_⟩
  have hi := (uses_right (exports := exports) hs hl hT hb hp hn us
    ⟨start_inv, ⟨by simp [hdrStart, LState.init], by simp [hdrStart, LState.init]⟩⟩ hu).1
  intro st c v obj hc
  exact cast_right hs hl ho hA hS hi.1 conv hc obj _ n

/-- C91 (partial: as `C91_class_partial`), for the name of a type. -/
theorem C91_name_partial {A : Type} (hs : TablesWf cfg junk s) (hl : LibOk cfg types s) (hT : PtrTable types) (ho : OneTag s)
    (hA : AbiMatch abi types z) (hS : SignMatch types sgn) (exports : Str → Bool) (conv : Nat → Except PyErr Addr) (x : Str) (v : CTy)
    (hq : AskOk cfg types s ⟨x, [], [some []]⟩ v) (hsh : ShapesOk cfg s true ⟨x, [], [some []]⟩) :
    ∃ N, ∀ n, N ≤ n → ∀ us : List (Use A), (∀ u ∈ us, FairUse cfg types s u) →
      let st := (useAll (hdrEnv cfg types s) n (hdrLib cfg types s n exports false) (hdrStart s) us).2.b
      ∀ obj, ∃ res st', castTo (hdrEnv cfg types s) n conv st obj (.name x) = (res, st') ∧
        CastRight types st'.structs cfg s abi sgn v obj res (fun m p i path r => ∃ K, ∀ k, K ≤ k → derefNum z st'.classes k m p i path = some r) := by
  obtain ⟨N, hb, hp⟩ := use_bound hs hl
  obtain ⟨M, hM⟩ := name_right (exports := exports) hs hl hq hsh
  refine ⟨max N M, fun n hn us hu => ?_⟩
  have hi := (uses_right (exports := exports) hs hl hT hb hp (show N ≤ n by omega) us
    ⟨start_inv, ⟨by simp [hdrStart, LState.init], by simp [hdrStart, LState.init]⟩⟩ hu).1
  intro st obj
  obtain ⟨c, b', g1, g2, g3⟩ := hM n (by omega) _ hi.1
  obtain ⟨res, q1, q2⟩ := cast_right hs hl ho hA hS g3 conv g2 obj (hdrEnv cfg types s) n
  refine ⟨res, b', ?_, q2⟩
  rw [← q1]
  simp only [castTo, arrTyp]
  rw [show getType (hdrEnv cfg types s) n st ⟨x, [], [some []]⟩ = (.ok c, b') from g1]

end

/-- C91: casting twice is casting once. -/
theorem C91_twice (e : CtEnv) (n : Nat) (conv : Nat → Except PyErr Addr) (st st1 : CtState) (obj : CastObj) (t t' : ArrTyp) (c : Cls) (a : Addr)
    (h : castTo e n conv st obj t = (.ok (c, a), st1)) : castTo e n conv st1 (.ptr c a) t' = castTo e n conv st1 obj t' := by
  have : addrOf conv obj = .ok a := by
    unfold castTo at h
    split at h
    · cases h
    · split at h
      · cases h
      · rename_i ha
        split at h <;> cases h
        exact ha
  unfold castTo
  rw [this]
  rfl

/-- C91: an object that is neither an array nor a pointer (a struct, a number object) is never cast, whatever the type. -/
theorem C91_objects (e : CtEnv) (n : Nat) (conv : Nat → Except PyErr Addr) (st : CtState) (c : Cls) (b o : Nat) (t : ArrTyp) :
    ∃ x, (castTo e n conv st (.inst c b o) t).1 = .error x := by
  unfold castTo
  split <;> exact ⟨_, rfl⟩

/-- C91 (partial: as `C91_name_partial`), for a list of header files. -/
theorem C91_files_partial {A : Type} (w : Setup) (he : ExtraWords w.cfg) (fs : List (Str × Str)) (s : Store DefVal)
    (h : processFiles w Store.empty fs = .ok s) (types : Dict Str Str) (hl : LibOk w.cfg types s) (hT : PtrTable types) (ho : OneTag s)
    (abi : Abi) (z : CtSizes) (hA : AbiMatch abi types z) (sgn : Str → Option Bool) (hS : SignMatch types sgn) (exports : Str → Bool)
    (conv : Nat → Except PyErr Addr) (x : Str) (v : CTy)
    (hq : AskOk w.cfg types s ⟨x, [], [some []]⟩ v) (hsh : ShapesOk w.cfg s true ⟨x, [], [some []]⟩) :
    ∃ N, ∀ n, N ≤ n → ∀ us : List (Use A), (∀ u ∈ us, FairUse w.cfg types s u) →
      let st := (useAll (hdrEnv w.cfg types s) n (hdrLib w.cfg types s n exports false) (hdrStart s) us).2.b
      ∀ obj, ∃ res st', castTo (hdrEnv w.cfg types s) n conv st obj (.name x) = (res, st') ∧
        CastRight types st'.structs w.cfg s abi sgn v obj res (fun m p i path r => ∃ K, ∀ k, K ≤ k → derefNum z st'.classes k m p i path = some r) :=
  C91_name_partial (C69_files w he fs _ s (C69_empty _ _) h) hl hT ho hA hS exports conv x v hq hsh

/-! ### Examples -/

attribute [local irreducible] clStore

/-- C91 on a header text: after any fair uses, an address cast to `cb_t` is kept, `vec` (an array type) raises; and an array of bytes cast to
`struct node *` (the class of the parameter of `visit`) is read as nodes: if the int `r` is at byte 64 · i + 12 of it, then `p[i].grid[1][0] == r`. -/
theorem C91_example (conv : Nat → Except PyErr Addr) : processFiles exSetup Store.empty [(c%"t.h", clText)] = .ok clStore ∧
    ∃ N, ∀ n, N ≤ n → ∀ us : List (Use Nat), (∀ u ∈ us, FairUse exSetup.cfg ctypesTable clStore u) →
      let st := (useAll (hdrEnv exSetup.cfg ctypesTable clStore) n (hdrLib exSetup.cfg ctypesTable clStore n (fun _ => true) false) (hdrStart clStore) us).2.b
      (∀ a, ∃ c st', castTo (hdrEnv exSetup.cfg ctypesTable clStore) n conv st (.ptr (.prim c%"c_void_p") a) (.name c%"cb_t") = (.ok (c, a), st') ∧
        Mirrors ctypesTable st'.structs c (.ptr (.fn [(none, .ptr (.base c%"struct node")), (none, .ptr (.base c%"char"))] (.base c%"int")))) ∧
      (∀ a, ∃ st', castTo (hdrEnv exSetup.cfg ctypesTable clStore) n conv st (.ptr (.prim c%"c_void_p") a) (.name c%"vec") = (.error .typeError, st')) ∧
      ∀ c b, Mirrors ctypesTable st.structs c (.ptr (.base c%"struct node")) →
        castTo (hdrEnv exSetup.cfg ctypesTable clStore) n conv st (.arr 256 (.prim c%"c_ubyte") b 0) (.cls c) = (.ok (c, .at b 0), st) ∧
        ∀ (m : Mem Bytes) i r, Holds 4 true (m.cell b) (64 * i + 12) r →
          ∃ K, ∀ k, K ≤ k → derefNum lp64Sizes st.classes k m (c, .at b 0) i [0, 1, 0] = some r := by
  refine ⟨clFiles, ?_⟩
  have ho : OneTag clStore := by intro tag; rw [clUnions]; simp [dhas, dget]
  have hvec : AskOk exSetup.cfg ctypesTable clStore ⟨c%"vec", [], [some []]⟩ (.arr (some (3 : Nat)) (.base c%"double")) :=
    ⟨⟨clShape rfl, by simp⟩, clFinite rfl (r := ctTy c%"double" [clArr 3]) rfl (by simp [ctTy, clArr]),
      ⟨_, 1, .nil _, clExpand (t := ctTy c%"double" [clArr 3]) (u := .arr (some 3) (.base c%"double"))
            (by rfl) (by rw [clTypes]; rfl) (.arrs _ [] _ [] _ (by simp) (.nil _)) (.arr _ _ _ _ (clFund (by rfl) rfl))⟩,
      .arr _ _ (by decide) (by simp) (.prim _ _ (by rfl))⟩
  obtain ⟨N1, h1⟩ := C91_files_partial (A := Nat) exSetup (by simp [ExtraWords, exSetup]) _ _ clFiles ctypesTable clLib ptrTable_ctypes ho
    lp64 lp64Sizes lp64_match lp64Signs lp64_signs (fun _ => true) conv c%"cb_t" _ clCb ⟨clShape rfl, by simp⟩
  obtain ⟨N2, h2⟩ := C91_files_partial (A := Nat) exSetup (by simp [ExtraWords, exSetup]) _ _ clFiles ctypesTable clLib ptrTable_ctypes ho
    lp64 lp64Sizes lp64_match lp64Signs lp64_signs (fun _ => true) conv c%"vec" _ hvec ⟨clShape rfl, by simp⟩
  obtain ⟨N3, h3⟩ := C91_class_partial (A := Nat) (C69_files exSetup (by simp [ExtraWords, exSetup]) _ _ _ (C69_empty _ _) clFiles) clLib ptrTable_ctypes ho
    lp64_match lp64_signs (fun _ => true) conv
  refine ⟨max N1 (max N2 N3), fun n hn us hu => ?_⟩
  intro st
  refine ⟨fun a => ?_, fun a => ?_, fun c b hc => ?_⟩
  · obtain ⟨res, st', e, hr⟩ := h1 n (by omega) us hu (.ptr (.prim c%"c_void_p") a)
    obtain ⟨c, rfl, hm, _⟩ := hr.pointer _ a rfl (.pointer _ _)
    exact ⟨c, st', e, hm⟩
  · obtain ⟨res, st', e, hr⟩ := h2 n (by omega) us hu (.ptr (.prim c%"c_void_p") a)
    cases hr.plain a (.arr 3 _) (.pointer _ _)
    exact ⟨st', e⟩
  · obtain ⟨res, e, hr⟩ := h3 n (by omega) us hu c _ (.arr 256 (.prim c%"c_ubyte") b 0) hc
    obtain ⟨c', rfl, hm, hrd⟩ := hr.pointer _ _ rfl (.array _ _ _ _)
    have hcc : c' = c := by
      simp only [castTo, arrTyp, addrOf] at e
      split at e <;> cases e
      rfl
    subst hcc
    refine ⟨e, fun m i r hh => ?_⟩
    obtain ⟨ms, m1, m2⟩ := clMembers
    have hly : Layout exSetup.cfg clStore lp64 false (.base c%"struct node") 64 8 := .comp false c%"node" ms none _ _ _ _ m1 m2 clPlaced
    have hint : IntTy lp64 lp64Signs (.base c%"int") 4 true := .simple _ _ 4 _ rfl rfl
    have hli : Layout exSetup.cfg clStore lp64 false (.base c%"int") 4 4 := .simple _ 4 4 rfl
    have hl3 : Layout exSetup.cfg clStore lp64 false (.arr (some (3 : Nat)) (.base c%"int")) 12 4 := .arr 3 _ _ _ hli
    have hgrid : CMeaning exSetup.cfg clStore (ctTy c%"int" [clArr 2, clArr 3]) (.arr (some (2 : Nat)) (.arr (some (3 : Nat)) (.base c%"int"))) :=
      ⟨_, 0, .arrs _ [_] _ [] _ (by simp) (.nil _), .arr _ _ _ _ (.arr _ _ _ _ (clFund (by rfl) rfl))⟩
    have hmm : ∃ m rest, ms = m :: rest ∧ m.type = ctTy c%"int" [clArr 2, clArr 3] := by
      rw [show clStore.defs (compKind false) = clStore.defs .structs from rfl, clStructs] at m1
      cases m1
      exact ⟨_, _, rfl, rfl⟩
    obtain ⟨mm, rest, rfl, hmt⟩ := hmm
    have hat : PartAt exSetup.cfg clStore lp64 (.base c%"struct node") [0, 1, 0] 12 (.base c%"int") :=
      .member false c%"node" _ none _ [0, 24, 32, 40] 64 8 0 0 mm _ _ 12 _ m1 m2 clPlaced rfl rfl (by simp)
        (hmt ▸ hgrid) (.elem 2 _ 1 12 4 _ 0 _ (by omega) hl3 (.elem 3 _ 0 4 4 _ 0 _ (by omega) hli (.here _)))
    refine hrd ⟨.base _ (by decide), by intro b hb; cases hb; rfl⟩ 64 8 b 0 hly rfl m i _ 12 _ 4 true r hat hint ?_
    rw [show 0 + i * 64 + 12 = 64 * i + 12 by omega]
    exact hh

/-- A cast after loading a header text (64-bit Unix), evaluated: the number read through the new pointer, or the error. -/
def textCast (text : Str) (obj : CastObj) (typ : Str) (m : Mem Bytes) (i : Nat) (path : List Nat) : Except PyErr (Option Int) :=
  match processFiles exSetup Store.empty [(c%"t.h", text)] with
  | .error x => .error x
  | .ok s =>
    let r := castTo (hdrEnv exSetup.cfg ctypesTable s) 20 (fun _ => .error .typeError) (hdrStart s).b obj (.name typ)
    r.1.map (fun p => derefNum lp64Sizes r.2.classes 20 m p i path)

def castGives (a : Except PyErr (Option Int)) (b : Option (Option Int)) : Bool :=
  match a, b with
  | .ok x, some y => x == y
  | .error .typeError, none => true
  | _, _ => false

def castText : Str := c%"struct pt { short x; int y; };\ntypedef struct pt *ppt;\ntypedef unsigned char *bytes;\ntypedef short word;\ntypedef struct pt pt_t;\n"

/-- C91 evaluated, block 3 having the bytes 0, 1, 2, …: `cast_to(lib, a, 'ppt')[1].y`, the bytes of an array, a type that is no pointer. -/
theorem C91_texts :
    castGives (textCast castText (.arr 4 (.prim c%"c_int") 3 0) c%"ppt" ⟨fun b j => if b = 3 then j else 0, 9⟩ 1 [1]) (some (some 252579084)) = true ∧
    castGives (textCast castText (.arr 4 (.prim c%"c_int") 3 8) c%"bytes" ⟨fun b j => if b = 3 then j else 0, 9⟩ 5 []) (some (some 13)) = true ∧
    castGives (textCast castText (.arr 4 (.prim c%"c_int") 3 0) c%"word" ⟨fun _ _ => 0, 9⟩ 0 []) none = true ∧
    castGives (textCast castText (.arr 4 (.prim c%"c_int") 3 0) c%"pt_t" ⟨fun _ _ => 0, 9⟩ 0 []) none = true := by decide +kernel

/-- Counterexample to C91 for objects other than arrays and pointers, and for type strings: `cast_to(lib, p, 'bytes')` with a `struct pt` object raises
(the documentation: "Object whose address should be returned"), and so does `cast_to(lib, a, 'unsigned char*')`. -/
theorem C91_counterexample :
    castGives (textCast castText (.inst (.comp 0) 3 0) c%"bytes" ⟨fun _ _ => 0, 9⟩ 0 []) none = true ∧
    (match textCast castText (.arr 4 (.prim c%"c_int") 3 0) c%"unsigned char*" ⟨fun _ _ => 0, 9⟩ 0 [] with | .error _ => true | .ok _ => false) = true := by
  decide +kernel

end Pyclib
