import Verif.Proofs.OwnershipParser

/-!
# The ledger over a call of the constructor, and over the functions of `src/abstraction.c`
-/

namespace Clever

open Spec

variable {α : Type} {s : CState (PData α)} {fails : Fails} {base own : Obj → Nat}

theorem owns_iff {l : Ledger} : Owns own l ↔ Books own l := by
  constructor
  · rintro ⟨h1, h2⟩
    exact ⟨funext h1, fun n hn => by rw [← h1]; exact h2 n hn⟩
  · rintro ⟨h1, h2⟩
    exact ⟨fun x => by rw [h1], fun n hn => by rw [h1]; exact h2 n hn⟩

/-- The references with those to the optional arguments. -/
def plusKw (own : Obj → Nat) (kws : List KwArg) : Obj → Nat := fun x => own x + kwRefs kws x

theorem plusKw_cons (own : Obj → Nat) (k : KwArg) (ks : List KwArg) :
    plusKw own (k :: ks) = plus (plusKw own ks) k.obj := by
  funext x; simp only [plusKw, plus, kwRefs]; omega

theorem sat_xdecrefKw : ∀ (kws : List KwArg) (s : CState (PData α)), Books (plusKw own kws) s.led →
    ∀ {P : Unit → CState (PData α) → Prop} {E}, (∀ l, Books own l → P () ⟨l, s.data⟩) →
    Sat (eachKw xdecref kws) s P E
  | [], s, h, _, _, hP => by
    have : plusKw own [] = own := by funext x; simp [plusKw, kwRefs]
    rw [this] at h
    exact hP s.led h
  | k :: ks, s, h, _, _, hP => by
    rw [plusKw_cons] at h
    refine sat_bind (Q := fun _ s' => ∃ l, Books (plusKw own ks) l ∧ s' = ⟨l, s.data⟩)
      (books_xdecref h fun l hl => ⟨l, hl, rfl⟩) ?_
    rintro _ _ ⟨l, hl, rfl⟩
    exact sat_xdecrefKw ks ⟨l, s.data⟩ hl hP

theorem sat_xincrefKw : ∀ (kws : List KwArg) (own : Obj → Nat) (s : CState (PData α)),
    Books own s.led → (∀ k ∈ kws, Passed k.obj) →
    ∀ {P : Unit → CState (PData α) → Prop} {E}, (∀ l, Books (plusKw own kws) l → P () ⟨l, s.data⟩) →
    Sat (eachKw xincref kws) s P E
  | [], own, s, h, _, _, _, hP => by
    have : plusKw own [] = own := by funext x; simp [plusKw, kwRefs]
    exact hP s.led (by rwa [this])
  | k :: ks, own, s, h, hk, _, _, hP => by
    refine sat_bind (Q := fun _ s' => ∃ l, Books (plus own k.obj) l ∧ s' = ⟨l, s.data⟩) ?_ ?_
    · have hk1 := hk k (by simp)
      cases ho : k.obj with
      | none => exact sat_pure ⟨s.led, by rwa [plus_none], rfl⟩
      | some o =>
        rw [ho] at hk1
        exact books_incref h (fun n => .inl fun e => hk1 n (by rw [e]))
          fun l hl => ⟨l, hl, rfl⟩
    · rintro _ _ ⟨l, hl, rfl⟩
      refine sat_xincrefKw ks _ ⟨l, s.data⟩ hl (fun k' hk' => hk k' (by simp [hk'])) ?_
      intro l' hl'
      refine hP l' ?_
      have : plusKw (plus own k.obj) ks = plusKw own (k :: ks) := by
        funext x; simp only [plusKw, plus, kwRefs]; omega
      rwa [← this]

theorem sat_attrsM : ∀ (kws : List KwArg) (s : CState (PData α))
    {P : Unit → CState (PData α) → Prop} {E : CExc → CState (PData α) → Prop},
    ((∀ k ∈ kws, k.accepted = true) → P () s) →
    ((∃ k ∈ kws, k.accepted = false) → E .badArgument s) → Sat (attrsM kws) s P E
  | [], _, _, _, hP, _ => sat_pure (hP (by simp))
  | k :: ks, s, _, _, hP, hE => by
    unfold attrsM
    cases hk : k.accepted with
    | true =>
      rw [if_pos rfl]
      refine sat_attrsM ks s (fun h => hP ?_) (fun h => hE ?_)
      · intro k' hk'
        rcases List.mem_cons.mp hk' with rfl | hk'
        · exact hk
        · exact h k' hk'
      · obtain ⟨k', h1, h2⟩ := h
        exact ⟨k', by simp [h1], h2⟩
    | false => exact sat_raise (hE ⟨k, by simp, hk⟩)

/-- `Py_DECREF(self)` with the last reference frees everything the parser owns. -/
theorem sat_decrefSelf_last {o : Obj} (h : Balanced (plus base (some o)) s)
    (h0 : total base s.data o = 0) {P : Unit → CState (PData α) → Prop} {E}
    (hP : ∀ l, Books base l → P () ⟨l, s.data⟩) : Sat (decrefSelf (some o)) s P E := by
  refine sat_bind (Q := fun _ s' => ∃ l, Balanced base ⟨l, s.data⟩ ∧ s' = ⟨l, s.data⟩)
    (sat_release h fun l hl => ⟨l, hl, rfl⟩) ?_
  rintro _ _ ⟨l, hl, rfl⟩
  have : l.own o = 0 := by rw [(balanced_iff.mp hl).1]; exact h0
  have h2 := sat_parserDeallocM (E := E) hl hP
  unfold Sat at h2 ⊢
  simpa [this] using h2

theorem sat_decrefSelf_more {o : Obj} (h : Balanced (plus (plus base (some o)) (some o)) s)
    {P : Unit → CState (PData α) → Prop} {E}
    (hP : ∀ l, Balanced (plus base (some o)) ⟨l, s.data⟩ → P () ⟨l, s.data⟩) :
    Sat (decrefSelf (some o)) s P E := by
  refine sat_bind (Q := fun _ s' => ∃ l, Balanced (plus base (some o)) ⟨l, s.data⟩ ∧
    s' = ⟨l, s.data⟩) (sat_release h fun l hl => ⟨l, hl, rfl⟩) ?_
  rintro _ _ ⟨l, hl, rfl⟩
  have : l.own o ≠ 0 := by
    rw [(balanced_iff.mp hl).1, total_plus]
    exact plus_ne o
  unfold Sat
  simpa [this] using hP l hl

theorem sat_parserNewM (parsed : Bool) (kws : List KwArg) (iter : Option Obj)
    (h : Owns own s.led) (hk : ∀ k ∈ kws, Passed k.obj) (hi : Passed iter) :
    Sat (parserNewM fails parsed kws iter) s
      (fun p s' => ∃ o, p = some o ∧ own o = 0 ∧ Balanced (plus own (some o)) s' ∧
        RoomOk s'.data ∧ s'.data.inputIter = iter ∧ s'.data.script = s.data.script ∧
        total own s'.data o = 0 ∧ iter ≠ none ∧ parsed = true ∧ ∀ k ∈ kws, k.accepted = true)
      (fun _ s' => Owns own s'.led ∨
        (iter = none ∧ parsed = true ∧ (∀ k ∈ kws, k.accepted = true) ∧
          Owns (plusKw own kws) s'.led)) := by
  rw [owns_iff] at h
  refine sat_bind (Q := fun p s' => ∃ l, s' = ⟨l, s.data⟩ ∧
    ((p = none ∧ Books own l) ∨ ∃ o, p = some o ∧ Books (plus own (some o)) l ∧ own o = 0 ∧
      ∃ n, o = .made n)) ?_ ?_
  · have hm : Sat (newObj fails .gcNew) s (fun p _ => ∀ o, p = some o → ∃ n, o = .made n)
        (fun _ _ => False) := by
      unfold Sat newObj
      by_cases hf : fails .gcNew s.led.calls = true
      · simp [hf]
      · simp only [hf]
        rintro o ⟨⟩
        exact ⟨_, rfl⟩
    have hb := books_newObj (fails := fails) (c := .gcNew) h
      (P := fun p s' => ∃ l, s' = ⟨l, s.data⟩ ∧
        ((p = none ∧ Books own l) ∨ ∃ o, p = some o ∧ Books (plus own (some o)) l ∧ own o = 0))
      (E := fun _ _ => False) (fun l hl _ => ⟨l, rfl, .inl ⟨rfl, hl⟩⟩)
      (fun l o hl h0 => ⟨l, rfl, .inr ⟨o, rfl, hl, h0⟩⟩)
    unfold Sat at hm hb ⊢
    cases hx : newObj fails .gcNew s with
    | ok p s' =>
      rw [hx] at hm hb
      obtain ⟨l, rfl, hb⟩ := hb
      refine ⟨l, rfl, ?_⟩
      rcases hb with hb | ⟨o, rfl, h1, h2⟩
      · exact .inl hb
      · exact .inr ⟨o, rfl, h1, h2, hm o rfl⟩
    | exc e s' => rw [hx] at hb; exact hb.elim
    | crash => rw [hx] at hb; exact hb
  rintro _ _ ⟨l, rfl, ⟨rfl, hl⟩ | ⟨o, rfl, hl, h0, m, hm⟩⟩
  · exact sat_raise (.inl (owns_iff.mpr hl))
  simp only [reduceCtorEq, if_false]
  have hkself : kwRefs kws o = 0 := by
    clear h hl
    induction kws with
    | nil => rfl
    | cons k ks ih =>
      simp only [kwRefs]
      rw [ih (fun k' hk' => hk k' (by simp [hk']))]
      have := hk k (by simp) m
      simp only [refs, hm, this, if_false]
  have hiself : refs iter o = 0 := by
    have := hi m
    simp only [refs, hm, this, if_false]
  let d1 : PData α := { s.data with
    inputIter := none, fields := none, buf := none, bufSize := 0, field := [], cells := [] }
  have htot : ∀ b : Obj → Nat, total b d1 = b := by
    intro b; funext x; simp [total, refs, d1]
  refine sat_bind (Q := fun _ s' => s' = ⟨l, d1⟩) (sat_modData rfl) ?_
  rintro _ _ rfl
  have hb1 : Balanced (plus own (some o)) ⟨l, d1⟩ := balanced_iff.mpr (by rwa [htot])
  have hr1 : RoomOk d1 := ⟨by simp [d1], fun _ => rfl⟩
  refine sat_bind (Q := fun _ s' => Safe (plus own (some o)) d1 s' ∧
    s'.data.script = s.data.script ∧ s'.data.fields ≠ some o ∧ s'.data.buf = none) ?_ ?_
  · refine sat_onError (sat_parseResetM (s := ⟨l, d1⟩) hb1 hr1 |>.mono ?_ (fun _ _ h => h)) ?_
    · rintro _ s' ⟨hs, hsc, _, _, hbuf, hx⟩
      exact ⟨hs, hsc, hx o (by rw [htot]; exact plus_ne o), hbuf⟩
    · rintro e s' ⟨hs, _, hfn, hbuf, _⟩
      refine sat_decrefSelf_last hs.bal ?_ fun l hl => .inl (owns_iff.mpr hl)
      have hit : s'.data.inputIter = none := hs.iter
      have hbuf' : s'.data.buf = none := hbuf
      simp [total, h0, hit, hfn, hbuf', refs]
  rintro _ s' ⟨hs, hsc, hfo, hbuf⟩
  have hit : s'.data.inputIter = none := hs.iter
  have h0' : total own s'.data o = 0 := by
    simp [total, h0, hit, hfo, hbuf, refs]
  cases parsed with
  | false =>
    refine sat_bind (Q := fun _ s'' => Owns own s''.led)
      (sat_decrefSelf_last hs.bal h0' fun l hl => owns_iff.mpr hl) ?_
    intro _ s'' h
    exact sat_raise (.inl h)
  | true =>
    simp only [Bool.not_true, Bool.false_eq_true, if_false]
    refine sat_bind (Q := fun _ s'' => ∃ l,
      Balanced (plus (plusKw own kws) (some o)) ⟨l, s'.data⟩ ∧ s'' = ⟨l, s'.data⟩) ?_ ?_
    · refine sat_xincrefKw kws _ s' (balanced_iff.mp hs.bal) hk fun l hl => ⟨l, ?_, rfl⟩
      refine balanced_iff.mpr ?_
      have e : plusKw (total (plus own (some o)) s'.data) kws =
          total (plus (plusKw own kws) (some o)) s'.data := by
        funext x; simp only [plusKw, total, plus]; omega
      rwa [← e]
    rintro _ _ ⟨l, hl, rfl⟩
    have h0k : total (plusKw own kws) s'.data o = 0 := by
      have : total (plusKw own kws) s'.data o = total own s'.data o + kwRefs kws o := by
        simp only [total, plusKw]; omega
      omega
    refine sat_bind (Q := fun _ s'' => s'' = ⟨l, s'.data⟩ ∧ ∀ k ∈ kws, k.accepted = true) ?_ ?_
    · refine sat_onError (F := fun _ s'' => s'' = ⟨l, s'.data⟩)
        (sat_attrsM kws _ (fun h => ⟨rfl, h⟩) (fun _ => rfl)) ?_
      rintro e _ rfl
      refine sat_bind (Q := fun _ s'' => ∃ l, Books (plusKw own kws) l ∧ s'' = ⟨l, s'.data⟩)
        (sat_decrefSelf_last hl h0k fun l hl => ⟨l, hl, rfl⟩) ?_
      rintro _ _ ⟨l, hl, rfl⟩
      exact sat_xdecrefKw kws ⟨l, s'.data⟩ hl fun l hl => .inl (owns_iff.mpr hl)
    rintro _ _ ⟨rfl, hacc⟩
    refine sat_bind (Q := fun _ s'' => ∃ l,
      Balanced (plus (plusKw own kws) (some o)) ⟨l, { s'.data with inputIter := iter }⟩ ∧
      s'' = ⟨l, { s'.data with inputIter := iter }⟩) ?_ ?_
    · refine sat_bind (Q := fun _ s'' => ∃ l,
        Books (plus (total (plus (plusKw own kws) (some o)) s'.data) iter) l ∧
        s'' = ⟨l, s'.data⟩) ?_ ?_
      · cases iter with
        | none => exact sat_pure ⟨l, by rw [plus_none]; exact balanced_iff.mp hl, rfl⟩
        | some it =>
          simp only [reduceCtorEq, if_false]
          exact books_incref (s := ⟨l, s'.data⟩) (balanced_iff.mp hl)
            (fun n => .inl fun e => hi n (by rw [e])) fun l hl => ⟨l, hl, rfl⟩
      · rintro _ _ ⟨l, hl, rfl⟩
        refine sat_modData ⟨l, balanced_iff.mpr ?_, rfl⟩
        have e : plus (total (plus (plusKw own kws) (some o)) s'.data) iter =
            total (plus (plusKw own kws) (some o)) { s'.data with inputIter := iter } := by
          funext x; simp [plus, total, hit, refs]; omega
        rwa [← e]
    rintro _ _ ⟨l, hl, rfl⟩
    have h0i : total (plusKw own kws) { s'.data with inputIter := iter } o = 0 := by
      have : total (plusKw own kws) { s'.data with inputIter := iter } o =
          total (plusKw own kws) s'.data o + refs iter o := by
        simp [total, hit, refs]; omega
      omega
    cases iter with
    | none =>
      simp only [if_true]
      refine sat_bind (Q := fun _ s'' => Owns (plusKw own kws) s''.led)
        (sat_decrefSelf_last hl h0i fun l hl => owns_iff.mpr hl) ?_
      intro _ s'' h
      exact sat_raise (.inr ⟨by simp, by simp, hacc, h⟩)
    | some it =>
      simp only [reduceCtorEq, if_false]
      refine sat_bind (Q := fun _ s'' => ∃ l, Balanced
        (plus (plus (plusKw own kws) (some o)) (some o))
        ⟨l, { s'.data with inputIter := some it }⟩ ∧
        s'' = ⟨l, { s'.data with inputIter := some it }⟩) ?_ ?_
      · refine books_incref (s := ⟨l, { s'.data with inputIter := some it }⟩)
          (balanced_iff.mp hl) (fun n => .inr (by rw [total_plus]; exact plus_ne o)) ?_
        intro l hl
        refine ⟨l, balanced_iff.mpr ?_, rfl⟩
        rw [total_plus]
        exact hl
      rintro _ _ ⟨l, hl, rfl⟩
      refine sat_bind (Q := fun _ s'' => ∃ l, Balanced (plus (plusKw own kws) (some o))
        ⟨l, { s'.data with inputIter := some it }⟩ ∧
        s'' = ⟨l, { s'.data with inputIter := some it }⟩)
        (sat_decrefSelf_more hl fun l hl => ⟨l, hl, rfl⟩) ?_
      rintro _ _ ⟨l, hl, rfl⟩
      have e : total (plus (plusKw own kws) (some o)) { s'.data with inputIter := some it } =
          plusKw (total (plus own (some o)) { s'.data with inputIter := some it }) kws := by
        funext x; simp only [plusKw, total, plus]; omega
      refine sat_bind (Q := fun _ s'' => ∃ l, Books
        (total (plus own (some o)) { s'.data with inputIter := some it }) l ∧
        s'' = ⟨l, { s'.data with inputIter := some it }⟩)
        (sat_xdecrefKw kws ⟨l, { s'.data with inputIter := some it }⟩
          (by rw [← e]; exact balanced_iff.mp hl) fun l hl => ⟨l, hl, rfl⟩) ?_
      rintro _ _ ⟨l, hl, rfl⟩
      refine sat_pure ⟨o, rfl, h0, balanced_iff.mpr hl, hs.room, rfl, hsc, ?_, by simp, by simp, hacc⟩
      have : total own { s'.data with inputIter := some it } o =
          total own s'.data o + refs (some it) o := by
        simp [total, hit, refs]; omega
      show total own { s'.data with inputIter := some it } o = 0
      rw [this, h0', hiself]

/-! ## `src/abstraction.c` -/

section abstraction

variable {s : CState Unit}

/-- An exception that a failing call has set, with the books in order. -/
def FailedCall (fails : Fails) (own : Obj → Nat) (e : CExc) (s : CState Unit) : Prop :=
  e = .callFailed ∧ (∃ c n, fails c n = true) ∧ Books own s.led

theorem sat_newBlock {c : Call} (h : Books own s.led) {P : Option Obj → CState Unit → Prop} {E}
    (hN : ∀ s', Books own s'.led → (∃ c n, fails c n = true) → P none s')
    (hS : ∀ s' o, Books (plus own (some o)) s'.led → P (some o) s') :
    Sat (newObj fails c) s P E :=
  books_newObj h (fun l hl ⟨n, hn⟩ => hN ⟨l, s.data⟩ hl ⟨_, n, hn⟩)
    (fun l o hl _ => hS ⟨l, s.data⟩ o hl)

theorem sat_free {o : Obj} (h : Books (plus own (some o)) s.led)
    {P : Unit → CState Unit → Prop} {E} (hP : ∀ s', Books own s'.led → P () s') :
    Sat (decref (some o)) s P E :=
  books_decref h fun l hl => hP ⟨l, s.data⟩ hl

theorem sat_reallocM {o : Obj} (h : Books (plus own (some o)) s.led)
    {P : Option Obj → CState Unit → Prop} {E}
    (hN : ∀ s', Books (plus own (some o)) s'.led → (∃ c n, fails c n = true) → P none s')
    (hS : ∀ s' o', Books (plus own (some o')) s'.led → P (some o') s') :
    Sat (reallocM fails (some o)) s P E := by
  refine sat_bind (Q := fun _ s' => s = s') (books_useObj h (plus_ne o) rfl) ?_
  rintro _ _ rfl
  refine sat_bind (Q := fun p s' =>
    (p = none ∧ Books (plus own (some o)) s'.led ∧ ∃ c n, fails c n = true) ∨
    ∃ o', p = some o' ∧ Books (plus (plus own (some o)) (some o')) s'.led)
    (sat_newBlock h (fun s' h1 h2 => .inl ⟨rfl, h1, h2⟩) fun s' o' h1 => .inr ⟨o', rfl, h1⟩) ?_
  rintro _ s' (⟨rfl, h1, h2⟩ | ⟨o', rfl, h1⟩)
  · exact sat_pure (hN s' h1 h2)
  · simp only [reduceCtorEq, if_false]
    rw [plus_comm] at h1
    refine sat_bind (Q := fun _ s' => Books (plus own (some o')) s'.led)
      (sat_free h1 fun s' h => h) ?_
    exact fun _ s' h => sat_pure (hS s' o' h)

theorem sat_absLoopM (d q e : Char) : ∀ (l : Str) (o : Obj) (size : Nat) (st : AbsState)
    (s : CState Unit), Books (plus own (some o)) s.led →
    Sat (absLoopM fails d q e (some o) size st l) s
      (fun r s' => r.2 = l.foldl (absStep d q e) st ∧
        ∃ o', r.1 = some o' ∧ Books (plus own (some o')) s'.led)
      (FailedCall fails own)
  | [], o, _, _, _, h => sat_pure ⟨rfl, o, rfl, h⟩
  | c :: rest, o, size, st, s, h => by
    refine sat_bind (Q := fun _ s' => s = s') (books_useObj h (plus_ne o) rfl) ?_
    rintro _ _ rfl
    simp only [List.foldl_cons]
    split
    · refine sat_bind (Q := fun p s' =>
        (p = none ∧ Books (plus own (some o)) s'.led ∧ ∃ c n, fails c n = true) ∨
        ∃ o', p = some o' ∧ Books (plus own (some o')) s'.led)
        (sat_reallocM h (fun s' h1 h2 => .inl ⟨rfl, h1, h2⟩) fun s' o' h1 => .inr ⟨o', rfl, h1⟩) ?_
      rintro _ s' (⟨rfl, h1, h2⟩ | ⟨o', rfl, h1⟩)
      · simp only [if_true]
        refine sat_bind (Q := fun _ s' => Books own s'.led) (sat_free h1 fun s' h => h) ?_
        exact fun _ s' h => sat_raise ⟨rfl, h2, h⟩
      · simp only [reduceCtorEq, if_false]
        exact sat_absLoopM d q e rest o' _ _ s' h1
    · exact sat_absLoopM d q e rest o _ _ s h

theorem sat_returnStr {own' : Obj → Nat} {cleanup : AM Unit} (x : Str) (h : Books own' s.led)
    (hc : ∀ (b : Obj → Nat) (s : CState Unit), (∃ p, Books (plus own' p) s.led ∧ b = plus own p) →
      Sat cleanup s (fun _ s' => Books b s'.led) (fun _ _ => False)) :
    Sat (returnStr fails cleanup x) s (fun r s' => r = x ∧ Books own s'.led)
      (FailedCall fails own) := by
  refine sat_bind (Q := fun p s' => Books (plus own' p) s'.led ∧
    (p = none → ∃ c n, fails c n = true))
    (sat_newBlock h (fun s' h1 h2 => ⟨by rwa [plus_none], fun _ => h2⟩)
      fun s' o' h1 => ⟨h1, by simp⟩) ?_
  rintro p s' ⟨h1, h2⟩
  refine sat_bind (Q := fun _ s' => Books (plus own p) s'.led)
    ((hc _ s' ⟨p, h1, rfl⟩).mono (fun _ _ h => h) fun _ _ h => h.elim) ?_
  intro _ s'' h3
  cases p with
  | none =>
    rw [plus_none] at h3
    exact sat_raise ⟨rfl, h2 rfl, h3⟩
  | some o =>
    simp only [reduceCtorEq, if_false]
    refine sat_bind (Q := fun _ s' => Books own s'.led) (sat_free h3 fun s' h => h) ?_
    exact fun _ s' h => sat_pure ⟨rfl, h⟩

theorem sat_baseAbstractionM (d q e : Char) (data : Str) (h : Books own s.led) :
    Sat (baseAbstractionM fails d q e (.str data)) s
      (fun r s' => r = baseAbstraction d q e data ∧ Books own s'.led) (FailedCall fails own) := by
  refine sat_bind (Q := fun x s' => data = x ∧ s = s') (sat_pure ⟨rfl, rfl⟩) ?_
  rintro _ _ ⟨rfl, rfl⟩
  refine sat_bind (Q := fun p s' =>
    (p = none ∧ Books own s'.led ∧ ∃ c n, fails c n = true) ∨
    ∃ o', p = some o' ∧ Books (plus own (some o')) s'.led)
    (sat_newBlock h (fun s' h1 h2 => .inl ⟨rfl, h1, h2⟩) fun s' o' h1 => .inr ⟨o', rfl, h1⟩) ?_
  rintro _ s' (⟨rfl, h1, h2⟩ | ⟨o, rfl, h1⟩)
  · exact sat_raise ⟨rfl, h2, h1⟩
  · simp only [reduceCtorEq, if_false]
    refine sat_bind (sat_absLoopM d q e data o 4096 ([], false) s' h1) ?_
    rintro ⟨p, st⟩ s'' ⟨rfl, o', rfl, h2⟩
    refine sat_bind (Q := fun _ s' => s'' = s') (books_useObj h2 (plus_ne o') rfl) ?_
    rintro _ _ rfl
    refine sat_returnStr _ h2 ?_
    rintro _ s3 ⟨p, h3, rfl⟩
    rw [plus_comm] at h3
    exact sat_free h3 fun _ h => h

/-- The books with the three blocks. -/
def blocks (own : Obj → Nat) (b : MergeBlocks) : Obj → Nat :=
  plus (plus (plus own b.r) b.l) b.out

/-- All three blocks are there. -/
def MergeBlocks.Full (b : MergeBlocks) : Prop := ∃ l r out, b = ⟨some l, some r, some out⟩

theorem sat_mergeErr (b : MergeBlocks) (h : Books (blocks own b) s.led)
    {P : Unit → CState Unit → Prop} {E} (hP : ∀ s', Books own s'.led → P () s') :
    Sat (mergeErr b) s P E := by
  refine sat_bind (Q := fun _ s' => Books (plus (plus own b.r) b.l) s'.led)
    (books_xdecref h fun l hl => hl) ?_
  intro _ s' h1
  refine sat_bind (Q := fun _ s' => Books (plus own b.r) s'.led)
    (books_xdecref h1 fun l hl => hl) ?_
  intro _ s' h2
  exact books_xdecref h2 fun l hl => hP _ hl

theorem sat_growIdxM (b : MergeBlocks) (idx size : Nat) (h : Books (blocks own b) s.led)
    (hf : b.Full) :
    Sat (growIdxM fails b idx size) s
      (fun r s' => r.1.Full ∧ Books (blocks own r.1) s'.led) (FailedCall fails own) := by
  unfold growIdxM
  split
  · obtain ⟨l, r, out, rfl⟩ := hf
    have e : blocks own ⟨some l, some r, some out⟩ =
        plus (plus (plus own (some r)) (some out)) (some l) := by
      rw [blocks, plus_comm]
    have h' := h
    rw [e] at h'
    refine sat_bind (Q := fun p s' =>
      (p = none ∧ Books (blocks own ⟨some l, some r, some out⟩) s'.led ∧
        ∃ c n, fails c n = true) ∨
      ∃ o', p = some o' ∧ Books (plus (plus (plus own (some r)) (some out)) (some o')) s'.led)
      (sat_reallocM h' (fun s' h1 h2 => .inl ⟨rfl, by rwa [e], h2⟩)
        fun s' o' h1 => .inr ⟨o', rfl, h1⟩) ?_
    rintro _ s' (⟨rfl, h1, h2⟩ | ⟨l', rfl, h1⟩)
    · simp only [if_true]
      refine sat_bind (Q := fun _ s' => Books own s'.led) (sat_mergeErr _ h1 fun s' h => h) ?_
      exact fun _ s' h => sat_raise ⟨rfl, h2, h⟩
    · simp only [reduceCtorEq, if_false]
      have e2 : plus (plus (plus own (some r)) (some out)) (some l') =
          plus (plus (plus own (some out)) (some l')) (some r) := by
        funext x; simp only [plus]; omega
      have e3 : blocks own ⟨some l', some r, some out⟩ =
          plus (plus (plus own (some out)) (some l')) (some r) := by
        funext x; simp only [blocks, plus]; omega
      rw [e2] at h1
      refine sat_bind (Q := fun p s' =>
        (p = none ∧ Books (blocks own ⟨some l', some r, some out⟩) s'.led ∧
          ∃ c n, fails c n = true) ∨
        ∃ o', p = some o' ∧ Books (plus (plus (plus own (some out)) (some l')) (some o')) s'.led)
        (sat_reallocM h1 (fun s' h1 h2 => .inl ⟨rfl, by rwa [e3], h2⟩)
          fun s' o' h1 => .inr ⟨o', rfl, h1⟩) ?_
      rintro _ s' (⟨rfl, h1, h2⟩ | ⟨r', rfl, h1⟩)
      · simp only [if_true]
        refine sat_bind (Q := fun _ s' => Books own s'.led) (sat_mergeErr _ h1 fun s' h => h) ?_
        exact fun _ s' h => sat_raise ⟨rfl, h2, h⟩
      · simp only [reduceCtorEq, if_false]
        refine sat_pure ⟨⟨l', r', out, rfl⟩, ?_⟩
        have e4 : blocks own ⟨some l', some r', some out⟩ =
            plus (plus (plus own (some out)) (some l')) (some r') := by
          funext x; simp only [blocks, plus]; omega
        show Books (blocks own ⟨some l', some r', some out⟩) s'.led
        rwa [e4]
  · exact sat_pure ⟨hf, h⟩

theorem use_blocks {b : MergeBlocks} (h : Books (blocks own b) s.led) (hf : b.Full)
    {p : Option Obj} (hp : p = b.l ∨ p = b.r ∨ p = b.out) {P : Unit → CState Unit → Prop} {E}
    (hP : P () s) : Sat (useObj p) s P E := by
  obtain ⟨l, r, out, rfl⟩ := hf
  have : ∃ o, p = some o ∧ blocks own ⟨some l, some r, some out⟩ o ≠ 0 := by
    rcases hp with rfl | rfl | rfl
    · exact ⟨l, rfl, by simp only [blocks, plus, refs_self]; omega⟩
    · exact ⟨r, rfl, by simp only [blocks, plus, refs_self]; omega⟩
    · exact ⟨out, rfl, by simp only [blocks, plus, refs_self]; omega⟩
  obtain ⟨o, rfl, ho⟩ := this
  exact books_useObj h ho hP

theorem sat_mergeLoopM : ∀ (n : Nat) (l : Str) (b : MergeBlocks) (idx size : Nat) (inq : Bool)
    (s : CState Unit), l.length ≤ n → Books (blocks own b) s.led → b.Full →
    Sat (mergeLoopM fails b idx size inq l) s
      (fun b' s' => b'.Full ∧ Books (blocks own b') s'.led) (FailedCall fails own)
  | n, [], b, _, _, _, _, _, h, hf => by
    unfold mergeLoopM
    exact sat_pure ⟨hf, h⟩
  | 0, _ :: _, _, _, _, _, _, hn, _, _ => by simp at hn
  | n + 1, c :: rest, b, idx, size, inq, s, hn, h, hf => by
    unfold mergeLoopM
    simp only [List.length_cons] at hn
    refine sat_bind (Q := fun _ s' => s = s') (use_blocks h hf (.inr (.inr rfl)) rfl) ?_
    rintro _ _ rfl
    split
    · exact sat_mergeLoopM n rest b idx size inq s (by omega) h hf
    split
    · refine sat_bind (Q := fun _ s' => s = s') (use_blocks h hf (.inl rfl) rfl) ?_
      rintro _ _ rfl
      exact sat_mergeLoopM n rest b idx size true s (by omega) h hf
    cases rest with
    | nil =>
      simp only
      refine sat_bind (Q := fun _ s' => s = s') (use_blocks h hf (.inr (.inl rfl)) rfl) ?_
      rintro _ _ rfl
      refine sat_bind (sat_growIdxM b (idx + 1) size h hf) ?_
      rintro ⟨b', sz⟩ s' ⟨h1, h2⟩
      exact sat_pure ⟨h1, h2⟩
    | cons t rest' =>
      simp only [List.length_cons] at hn
      simp only
      split
      · exact sat_mergeLoopM n rest' b idx size true s (by omega) h hf
      · refine sat_bind (Q := fun _ s' => s = s') (use_blocks h hf (.inr (.inl rfl)) rfl) ?_
        rintro _ _ rfl
        refine sat_bind (sat_growIdxM b (idx + 1) size h hf) ?_
        rintro ⟨b', sz⟩ s' ⟨h1, h2⟩
        exact sat_mergeLoopM n (t :: rest') b' (idx + 1) sz false s'
          (by simp only [List.length_cons]; omega) h2 h1

theorem sat_mergeM (x : Str) (h : Books own s.led) :
    Sat (mergeM fails (.str x)) s
      (fun r s' => r = mergeWithQuotechar x ∧ Books own s'.led) (FailedCall fails own) := by
  refine sat_bind (Q := fun y s' => x = y ∧ s = s') (sat_pure ⟨rfl, rfl⟩) ?_
  rintro _ _ ⟨rfl, rfl⟩
  by_cases hx : x = []
  · rw [if_pos hx]
    exact sat_pure ⟨by rw [hx]; rfl, h⟩
  rw [if_neg hx]
  refine sat_bind (Q := fun p s' =>
    (p = none ∧ Books own s'.led ∧ ∃ c n, fails c n = true) ∨
    ∃ o', p = some o' ∧ Books (plus own (some o')) s'.led)
    (sat_newBlock h (fun s' h1 h2 => .inl ⟨rfl, h1, h2⟩) fun s' o' h1 => .inr ⟨o', rfl, h1⟩) ?_
  rintro _ s' (⟨rfl, h1, h2⟩ | ⟨l, rfl, h1⟩)
  · exact sat_raise ⟨rfl, h2, h1⟩
  simp only [reduceCtorEq, if_false]
  refine sat_bind (Q := fun p s' =>
    (p = none ∧ Books (plus own (some l)) s'.led ∧ ∃ c n, fails c n = true) ∨
    ∃ o', p = some o' ∧ Books (plus (plus own (some l)) (some o')) s'.led)
    (sat_newBlock h1 (fun s' h1 h2 => .inl ⟨rfl, h1, h2⟩) fun s' o' h1 => .inr ⟨o', rfl, h1⟩) ?_
  rintro _ s' (⟨rfl, h1, h2⟩ | ⟨r, rfl, h1⟩)
  · simp only [if_true]
    refine sat_bind (Q := fun _ s' => Books own s'.led) (sat_free h1 fun s' h => h) ?_
    exact fun _ s' h => sat_raise ⟨rfl, h2, h⟩
  simp only [reduceCtorEq, if_false]
  refine sat_bind (Q := fun p s' =>
    (p = none ∧ Books (plus (plus own (some l)) (some r)) s'.led ∧ ∃ c n, fails c n = true) ∨
    ∃ o', p = some o' ∧ Books (plus (plus (plus own (some l)) (some r)) (some o')) s'.led)
    (sat_newBlock h1 (fun s' h1 h2 => .inl ⟨rfl, h1, h2⟩) fun s' o' h1 => .inr ⟨o', rfl, h1⟩) ?_
  rintro _ s' (⟨rfl, h1, h2⟩ | ⟨out, rfl, h1⟩)
  · simp only [if_true]
    rw [plus_comm] at h1
    refine sat_bind (Q := fun _ s' => Books (plus own (some r)) s'.led)
      (sat_free h1 fun s' h => h) ?_
    intro _ s' h1
    refine sat_bind (Q := fun _ s' => Books own s'.led) (sat_free h1 fun s' h => h) ?_
    exact fun _ s' h => sat_raise ⟨rfl, h2, h⟩
  simp only [reduceCtorEq, if_false]
  have e : plus (plus (plus own (some l)) (some r)) (some out) =
      blocks own ⟨some l, some r, some out⟩ := by
    rw [blocks, plus_comm own (some l) (some r)]
  rw [e] at h1
  refine sat_bind (sat_mergeLoopM x.length x _ 0 4 false s' (Nat.le_refl _) h1 ⟨l, r, out, rfl⟩) ?_
  rintro b s2 ⟨hf, h2⟩
  refine sat_bind (Q := fun _ s' => s2 = s') (use_blocks h2 hf (.inl rfl) rfl) ?_
  rintro _ _ rfl
  refine sat_bind (Q := fun _ s' => s2 = s') (use_blocks h2 hf (.inr (.inl rfl)) rfl) ?_
  rintro _ _ rfl
  refine sat_bind (Q := fun _ s' => s2 = s') (use_blocks h2 hf (.inr (.inr rfl)) rfl) ?_
  rintro _ _ rfl
  refine sat_returnStr _ h2 ?_
  rintro _ s3 ⟨p, h3, rfl⟩
  have e5 : plus (blocks own b) p = blocks (plus own p) b := by
    funext x; simp only [blocks, plus]; omega
  rw [e5] at h3
  exact sat_mergeErr b h3 fun _ h => h

end abstraction

end Clever
