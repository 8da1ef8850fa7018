import Verif.Spec.Ownership

/-!
# Lemmas on the ledger of the C code
-/

namespace Clever

open Spec

/-- The outcome of a piece of C code: no crash, and the respective condition. -/
def Sat {σ β : Type} (x : CM σ β) (s : σ) (P : β → σ → Prop) (E : CExc → σ → Prop) : Prop :=
  match x s with
  | .ok a s' => P a s'
  | .exc e s' => E e s'
  | .crash => False

section rules

variable {σ β γ : Type} {s : σ} {E : CExc → σ → Prop}

theorem sat_bind {x : CM σ β} {f : β → CM σ γ} {Q : β → σ → Prop} {P : γ → σ → Prop}
    (hx : Sat x s Q E) (hf : ∀ a s', Q a s' → Sat (f a) s' P E) : Sat (x >>= f) s P E := by
  unfold Sat at hx ⊢
  show (match (match x s with
    | .ok a s' => f a s' | .exc e s' => .exc e s' | .crash => .crash : CRes σ γ) with
    | .ok a s' => P a s' | .exc e s' => E e s' | .crash => False)
  cases h : x s with
  | ok a s' => rw [h] at hx; exact hf a s' hx
  | exc e s' => rw [h] at hx; exact hx
  | crash => rw [h] at hx; exact hx.elim

theorem sat_pure {a : β} {P : β → σ → Prop} (h : P a s) : Sat (pure a : CM σ β) s P E := h

theorem sat_raise {e : CExc} {P : β → σ → Prop} (h : E e s) : Sat (cRaise e : CM σ β) s P E := h

theorem Sat.mono {x : CM σ β} {P Q : β → σ → Prop} {F : CExc → σ → Prop}
    (h : Sat x s P E) (hP : ∀ a s', P a s' → Q a s') (hE : ∀ e s', E e s' → F e s') :
    Sat x s Q F := by
  unfold Sat at h ⊢
  cases hx : x s with
  | ok a s' => rw [hx] at h; exact hP a s' h
  | exc e s' => rw [hx] at h; exact hE e s' h
  | crash => rw [hx] at h; exact h

theorem sat_onError {x : CM σ β} {c : CM σ Unit} {P : β → σ → Prop} {F : CExc → σ → Prop}
    (hx : Sat x s P F)
    (hc : ∀ e s', F e s' → Sat c s' (fun _ s'' => E e s'') (fun _ _ => False)) :
    Sat (onError x c) s P E := by
  unfold Sat at hx ⊢
  unfold onError
  cases h : x s with
  | ok a s' => rw [h] at hx; exact hx
  | crash => rw [h] at hx; exact hx.elim
  | exc e s' =>
    rw [h] at hx
    have h2 := hc e s' hx
    unfold Sat at h2
    cases h3 : c s' with
    | ok a s'' => rw [h3] at h2; simpa [h3] using h2
    | exc e' s'' => rw [h3] at h2; exact h2.elim
    | crash => rw [h3] at h2; exact h2.elim

end rules

variable {α β : Type}

/-- Increase of the references held for others. -/
def plus (base : Obj → Nat) (p : Option Obj) : Obj → Nat := fun x => base x + refs p x

theorem sat_getData {δ : Type} {s : CState δ} {P : δ → CState δ → Prop} {E}
    (h : P s.data s) : Sat getData s P E := h

theorem sat_modData {δ : Type} {s : CState δ} {f : δ → δ} {P : Unit → CState δ → Prop} {E}
    (h : P () { s with data := f s.data }) : Sat (modData f) s P E := h

/-! ## The ledger alone -/

/-- A ledger in which nothing is known of objects yet to be made, with the given references. -/
def Books (own : Obj → Nat) (l : Ledger) : Prop :=
  l.own = own ∧ ∀ n, l.next ≤ n → own (.made n) = 0

variable {δ : Type} {own : Obj → Nat} {s : CState δ}

theorem books_callOk {fails : Fails} {c : Call} (h : Books own s.led)
    {P : Bool → CState δ → Prop} {E}
    (hP : ∀ l b, Books own l → (b = false → ∃ n, fails c n = true) → P b ⟨l, s.data⟩) :
    Sat (callOk fails c) s P E := by
  refine hP _ _ ⟨h.1, h.2⟩ ?_
  intro hb
  refine ⟨s.led.calls, ?_⟩
  simpa using hb

theorem books_newObj {fails : Fails} {c : Call} (h : Books own s.led)
    {P : Option Obj → CState δ → Prop} {E}
    (hN : ∀ l, Books own l → (∃ n, fails c n = true) → P none ⟨l, s.data⟩)
    (hS : ∀ l o, Books (plus own (some o)) l → own o = 0 → P (some o) ⟨l, s.data⟩) :
    Sat (newObj fails c) s P E := by
  unfold Sat newObj
  by_cases hf : fails c s.led.calls = true
  · simp only [hf, if_true]
    exact hN _ ⟨h.1, h.2⟩ ⟨_, hf⟩
  · simp only [hf]
    refine hS _ _ ⟨?_, ?_⟩ ?_
    · funext x
      have := congrFun h.1 x
      simp only [Ledger.add, plus, refs, this, Option.some.injEq]
      by_cases hx : x = .made s.led.next
      · simp [hx]
      · simp [hx, Ne.symm hx]
    · intro n hn
      have h2 := h.2 n (by simp [Ledger.add] at hn; omega)
      simp only [plus, h2, refs]
      have : s.led.next ≠ n := by simp [Ledger.add] at hn; omega
      simp [this]
    · exact h.2 _ (Nat.le_refl _)

theorem books_useObj {o : Obj} (h : Books own s.led) (ho : own o ≠ 0)
    {P : Unit → CState δ → Prop} {E} (hP : P () s) : Sat (useObj (some o)) s P E := by
  unfold Sat useObj
  rw [h.1]
  simp only [ho]
  exact hP

theorem books_incref {o : Obj} (h : Books own s.led) (hf : ∀ n, o ≠ .made n ∨ own o ≠ 0)
    {P : Unit → CState δ → Prop} {E}
    (hP : ∀ l, Books (plus own (some o)) l → P () ⟨l, s.data⟩) : Sat (incref (some o)) s P E := by
  refine hP _ ⟨?_, ?_⟩
  · funext x
    have := congrFun h.1 x
    simp only [Ledger.add, plus, refs, this, Option.some.injEq]
    by_cases hx : x = o
    · simp [hx]
    · simp [hx, Ne.symm hx]
  · intro n hn
    have h2 := h.2 n hn
    simp only [plus, h2, refs, Option.some.injEq, Nat.zero_add, ite_eq_right_iff]
    intro hon
    subst hon
    rcases hf n with h3 | h3
    · exact absurd rfl h3
    · exact absurd h2 h3

theorem books_decref {o : Obj} (h : Books (plus own (some o)) s.led)
    {P : Unit → CState δ → Prop} {E}
    (hP : ∀ l, Books own l → P () ⟨l, s.data⟩) : Sat (decref (some o)) s P E := by
  unfold Sat decref
  have h0 : s.led.own o ≠ 0 := by rw [h.1]; simp [plus, refs]
  simp only [h0]
  refine hP _ ⟨?_, ?_⟩
  · funext x
    have := congrFun h.1 x
    simp only [Ledger.sub, this, plus, refs, Option.some.injEq]
    by_cases hx : x = o
    · simp [hx]
    · simp [hx, Ne.symm hx]
  · intro n hn
    have h2 := h.2 n hn
    simp only [plus] at h2
    omega

theorem plus_comm (own : Obj → Nat) (p q : Option Obj) :
    plus (plus own p) q = plus (plus own q) p := by
  funext x; simp only [plus]; omega

theorem plus_none (own : Obj → Nat) : plus own none = own := by
  funext x; simp [plus, refs]

theorem plus_ne {own : Obj → Nat} (o : Obj) : plus own (some o) o ≠ 0 := by
  simp [plus, refs]

theorem plus_ne' {own : Obj → Nat} {o : Obj} (p : Option Obj) (h : own o ≠ 0) :
    plus own p o ≠ 0 := by
  simp only [plus]; omega

theorem books_xdecref {p : Option Obj} (h : Books (plus own p) s.led)
    {P : Unit → CState δ → Prop} {E}
    (hP : ∀ l, Books own l → P () ⟨l, s.data⟩) : Sat (xdecref p) s P E := by
  cases p with
  | none =>
    rw [plus_none] at h
    exact hP s.led h
  | some o => exact books_decref h hP

/-! ## `parse_save_field` -/

section parser

variable {s : CState (PData α)} {fails : Fails}

theorem sat_strstrip {o : Obj} (hu : ∀ n, fails .unicodeNew n = false)
    (h : Books (plus own (some o)) s.led) {P : Option Obj → CState (PData α) → Prop} {E}
    (hP : ∀ l o', Books (plus own (some o')) l → P (some o') ⟨l, s.data⟩) :
    Sat (strstrip fails (some o)) s P E := by
  refine sat_bind (Q := fun _ s' => s = s') (books_useObj h (plus_ne o) rfl) ?_
  rintro _ _ rfl
  refine sat_bind (Q := fun p s' => ∃ o' l, p = some o' ∧
    Books (plus (plus own (some o)) (some o')) l ∧ s' = ⟨l, s.data⟩) ?_ ?_
  · refine books_newObj h ?_ ?_
    · rintro l _ ⟨n, hn⟩
      rw [hu n] at hn
      exact absurd hn (by simp)
    · intro l o' hl _
      exact ⟨o', l, rfl, hl, rfl⟩
  · rintro _ _ ⟨o', l, rfl, hl, rfl⟩
    refine sat_bind (Q := fun _ s' => s' = ⟨l, s.data⟩) (books_useObj hl (plus_ne o') rfl) ?_
    rintro _ _ rfl
    rw [plus_comm] at hl
    refine sat_bind (Q := fun _ s' => ∃ l, Books (plus own (some o')) l ∧ s' = ⟨l, s.data⟩)
      (books_decref hl fun l' hl' => ⟨l', hl', rfl⟩) ?_
    rintro _ _ ⟨l', hl', rfl⟩
    exact hP l' o' hl'

theorem sat_stripIf {o : Obj} (hu : ∀ n, fails .unicodeNew n = false) (b : Bool) (front back : Nat) (x : Str) (q : Bool)
    (h : Books (plus own (some o)) s.led) {P : FieldVar → CState (PData α) → Prop} {E}
    (hP : ∀ l o', Books (plus own (some o')) l →
      P (some o', if b then ((x.drop front).take (x.length - front - back), true) else (x, q)) ⟨l, s.data⟩) :
    Sat (stripIf fails b front back (some o, x, q)) s P E := by
  cases b with
  | true =>
    refine sat_bind (Q := fun p s' => ∃ l o', p = some o' ∧ Books (plus own (some o')) l ∧ s' = ⟨l, s.data⟩)
      (sat_strstrip hu h fun l o' hl => ⟨l, o', rfl, hl, rfl⟩) ?_
    rintro _ _ ⟨l, o', rfl, hl, rfl⟩
    exact sat_pure (hP l o' hl)
  | false => exact sat_pure (hP _ o h)

theorem sat_fieldObj (hu : ∀ n, fails .unicodeNew n = false) (cfg : Cfg) (field : Str)
    (trailing : Bool) (h : Books own s.led) {P : FieldVar → CState (PData α) → Prop}
    {E : CExc → CState (PData α) → Prop}
    (hP : ∀ l o, Books (plus own (some o)) l → P (some o, saveCell cfg.quotechar field trailing) ⟨l, s.data⟩)
    (hE : ∀ l, Books own l → (∃ c n, fails c n = true) → E .callFailed ⟨l, s.data⟩) :
    Sat (fieldObj fails cfg field trailing) s P E := by
  refine sat_bind (Q := fun p s' => ∃ l, s' = ⟨l, s.data⟩ ∧
    ((p = none ∧ Books own l ∧ ∃ c n, fails c n = true) ∨
      ∃ o, p = some o ∧ Books (plus own (some o)) l)) ?_ ?_
  · refine books_newObj h ?_ ?_
    · rintro l hl ⟨n, hn⟩
      exact ⟨l, rfl, .inl ⟨rfl, hl, _, n, hn⟩⟩
    · intro l o hl _
      exact ⟨l, rfl, .inr ⟨o, rfl, hl⟩⟩
  · rintro _ _ ⟨l, rfl, ⟨rfl, hl, hf⟩ | ⟨o, rfl, hl⟩⟩
    · exact hE l hl hf
    · simp only [reduceCtorEq, if_false]
      refine sat_bind (Q := fun _ s' => s' = ⟨l, s.data⟩) (books_useObj hl (plus_ne o) rfl) ?_
      rintro _ _ rfl
      refine sat_bind (Q := fun f s' => ∃ l o, f = (some o, if quoteCond field cfg.quotechar then
          ((field.drop 1).take (field.length - 1 - 1), true) else (field, false)) ∧ Books (plus own (some o)) l ∧
        s' = ⟨l, s.data⟩)
        (sat_stripIf (s := ⟨l, s.data⟩) hu _ _ _ _ _ hl fun l o hl => ⟨l, o, rfl, hl, rfl⟩) ?_
      rintro _ _ ⟨l, o, rfl, hl, rfl⟩
      refine sat_bind (Q := fun _ s' => s' = ⟨l, s.data⟩) (books_useObj hl (plus_ne o) rfl) ?_
      rintro _ _ rfl
      refine sat_stripIf (s := ⟨l, s.data⟩) hu _ _ _ _ _ hl fun l o hl => ?_
      have e : ∀ x : Str, (x.drop 1).take (x.length - 1 - 0) = x.drop 1 := fun x => by
        rw [List.take_of_length_le]; simp
      have e2 : (field.drop 1).take (field.length - 1 - 1) = (field.drop 1).dropLast := by
        rw [List.dropLast_eq_take, List.length_drop]
      have := hP l o hl
      simp only [saveCell] at this
      rw [e, e2]
      exact this

theorem sat_tupleSetItem {t o : Obj} (h : Books (plus own (some o)) s.led) (ht : own t ≠ 0)
    {P : Bool → CState (PData α) → Prop} {E}
    (hP : ∀ l b, Books own l → (b = false → ∃ c n, fails c n = true) → P b ⟨l, s.data⟩) :
    Sat (tupleSetItem fails (some t) (some o)) s P E := by
  refine sat_bind (Q := fun _ s' => s = s') (books_useObj h (plus_ne' _ ht) rfl) ?_
  rintro _ _ rfl
  refine sat_bind (Q := fun _ s' => ∃ l, Books own l ∧ s' = ⟨l, s.data⟩)
    (books_decref h fun l' hl' => ⟨l', hl', rfl⟩) ?_
  rintro _ _ ⟨l, hl, rfl⟩
  exact books_callOk hl fun l' b hl' hb => hP l' b hl' fun e => ⟨_, hb e⟩

theorem sat_listAppend {t o : Obj} (h : Books own s.led) (ht : own t ≠ 0) (ho : own o ≠ 0)
    {P : Bool → CState (PData α) → Prop} {E}
    (hP : ∀ l b, Books own l → (b = false → ∃ c n, fails c n = true) → P b ⟨l, s.data⟩) :
    Sat (listAppend fails (some t) (some o)) s P E := by
  refine sat_bind (Q := fun _ s' => s = s') (books_useObj h ht rfl) ?_
  rintro _ _ rfl
  refine sat_bind (Q := fun _ s' => s = s') (books_useObj h ho rfl) ?_
  rintro _ _ rfl
  exact books_callOk h fun l' b hl' hb => hP l' b hl' fun e => ⟨_, hb e⟩

theorem sat_releaseAndRaise {o : Obj} (h : Books (plus own (some o)) s.led)
    {P : β → CState (PData α) → Prop} {E : CExc → CState (PData α) → Prop}
    (hE : ∀ l, Books own l → E .callFailed ⟨l, s.data⟩) :
    Sat (do decref (some o); cRaise .callFailed : PM α β) s P E := by
  refine sat_bind (Q := fun _ s' => ∃ l, Books own l ∧ s' = ⟨l, s.data⟩)
    (books_decref h fun l' hl' => ⟨l', hl', rfl⟩) ?_
  rintro _ _ ⟨l, hl, rfl⟩
  exact sat_raise (hE l hl)

theorem sat_appendField {o f : Obj} (h : Books (plus own (some o)) s.led)
    (hf : s.data.fields = some f) (hown : own f ≠ 0)
    {P : Unit → CState (PData α) → Prop} {E : CExc → CState (PData α) → Prop}
    (hP : ∀ l, Books own l → P () ⟨l, s.data⟩)
    (hE : ∀ l, Books own l → (∃ c n, fails c n = true) → E .callFailed ⟨l, s.data⟩) :
    Sat (appendField fails (some o)) s P E := by
  refine sat_bind (Q := fun d s' => s.data = d ∧ s = s') (sat_getData ⟨rfl, rfl⟩) ?_
  rintro _ _ ⟨rfl, rfl⟩
  rw [hf]
  refine sat_bind (Q := fun b s' => ∃ l, Books (plus own (some o)) l ∧
    (b = false → ∃ c n, fails c n = true) ∧ s' = ⟨l, s.data⟩)
    (sat_listAppend h (plus_ne' _ hown) (plus_ne o) fun l b hl hb => ⟨l, hl, hb, rfl⟩) ?_
  rintro b _ ⟨l, hl, hb, rfl⟩
  cases b with
  | false => exact sat_releaseAndRaise hl fun l' hl' => hE l' hl' (hb rfl)
  | true => exact books_decref hl hP

theorem sat_appendTuple {o f : Obj} {q : Bool} (h : Books (plus own (some o)) s.led)
    (hf : s.data.fields = some f) (hown : own f ≠ 0)
    {P : Unit → CState (PData α) → Prop} {E : CExc → CState (PData α) → Prop}
    (hP : ∀ l, Books own l → P () ⟨l, s.data⟩)
    (hE : ∀ l, Books own l → (∃ c n, fails c n = true) → E .callFailed ⟨l, s.data⟩) :
    Sat (appendTuple fails (some o) q) s P E := by
  refine sat_bind (Q := fun p s' => ∃ l, s' = ⟨l, s.data⟩ ∧
    ((p = none ∧ Books (plus own (some o)) l ∧ ∃ c n, fails c n = true) ∨
      ∃ t, p = some t ∧ Books (plus (plus own (some o)) (some t)) l)) ?_ ?_
  · refine books_newObj h ?_ ?_
    · rintro l hl ⟨n, hn⟩
      exact ⟨l, rfl, .inl ⟨rfl, hl, _, n, hn⟩⟩
    · intro l t hl _
      exact ⟨l, rfl, .inr ⟨t, rfl, hl⟩⟩
  · rintro _ _ ⟨l, rfl, ⟨rfl, hl, hfl⟩ | ⟨t, rfl, hl⟩⟩
    · simp only [if_true]
      exact sat_releaseAndRaise (s := ⟨l, s.data⟩) hl fun l' hl' => hE l' hl' hfl
    · simp only [reduceCtorEq, if_false]
      rw [plus_comm] at hl
      refine sat_bind (Q := fun b s' => ∃ l, Books (plus own (some t)) l ∧
        (b = false → ∃ c n, fails c n = true) ∧ s' = ⟨l, s.data⟩)
        (sat_tupleSetItem (s := ⟨l, s.data⟩) hl (plus_ne t)
          fun l b hl hb => ⟨l, hl, hb, rfl⟩) ?_
      rintro b _ ⟨l, hl, hb, rfl⟩
      cases b with
      | false => exact sat_releaseAndRaise (s := ⟨l, s.data⟩) hl fun l' hl' => hE l' hl' (hb rfl)
      | true =>
        simp only [Bool.not_true, Bool.false_eq_true, if_false]
        refine sat_bind (Q := fun _ s' => ∃ l,
          Books (plus (plus own (some t)) (some (if q then Obj.true else Obj.false))) l ∧
          s' = ⟨l, s.data⟩) (books_incref (s := ⟨l, s.data⟩) hl
            (fun n => .inl (by cases q <;> simp)) fun l hl => ⟨l, hl, rfl⟩) ?_
        rintro _ _ ⟨l, hl, rfl⟩
        refine sat_bind (Q := fun b s' => ∃ l, Books (plus own (some t)) l ∧
          (b = false → ∃ c n, fails c n = true) ∧ s' = ⟨l, s.data⟩)
          (sat_tupleSetItem (s := ⟨l, s.data⟩) hl (plus_ne t)
            fun l b hl hb => ⟨l, hl, hb, rfl⟩) ?_
        rintro b _ ⟨l, hl, hb, rfl⟩
        cases b with
        | false =>
          exact sat_releaseAndRaise (s := ⟨l, s.data⟩) hl fun l' hl' => hE l' hl' (hb rfl)
        | true =>
          simp only [Bool.not_true, Bool.false_eq_true, if_false]
          refine sat_bind (Q := fun d s' => d = s.data ∧ s' = ⟨l, s.data⟩)
            (sat_getData ⟨rfl, rfl⟩) ?_
          rintro _ _ ⟨rfl, rfl⟩
          rw [hf]
          refine sat_bind (Q := fun b s' => ∃ l, Books (plus own (some t)) l ∧
            (b = false → ∃ c n, fails c n = true) ∧ s' = ⟨l, s.data⟩)
            (sat_listAppend (s := ⟨l, s.data⟩) hl (plus_ne' _ hown) (plus_ne t)
              fun l b hl hb => ⟨l, hl, hb, rfl⟩) ?_
          rintro b _ ⟨l, hl, hb, rfl⟩
          cases b with
          | false =>
            exact sat_releaseAndRaise (s := ⟨l, s.data⟩) hl fun l' hl' => hE l' hl' (hb rfl)
          | true => exact books_decref (s := ⟨l, s.data⟩) hl hP

/-! ## `parse_process_char` -/

/-- All references of a parser. -/
def total (base : Obj → Nat) (d : PData α) : Obj → Nat := fun x =>
  base x + refs d.inputIter x + refs d.fields x + refs d.buf x

theorem balanced_iff {base : Obj → Nat} :
    Balanced base s ↔ Books (total base s.data) s.led := by
  constructor
  · rintro ⟨h1, h2⟩
    refine ⟨funext h1, fun n hn => ?_⟩
    rw [← h2 n hn, h1]
    rfl
  · rintro ⟨h1, h2⟩
    refine ⟨fun x => by rw [h1]; rfl, fun n hn => ?_⟩
    rw [h1]
    exact h2 n hn

/-- The parser object of the model on lists. -/
def PData.abs (d : PData α) : PObj α := ⟨d.cells, d.field, d.state⟩

/-- What the code that processes a line leaves alone. -/
structure Kept (d d' : PData α) : Prop where
  iter : d'.inputIter = d.inputIter
  fields : d'.fields = d.fields
  script : d'.script = d.script

theorem Kept.refl (d : PData α) : Kept d d := ⟨rfl, rfl, rfl⟩

theorem Kept.trans {d d' d'' : PData α} (h : Kept d d') (h' : Kept d' d'') : Kept d d'' :=
  ⟨h'.iter.trans h.iter, h'.fields.trans h.fields, h'.script.trans h.script⟩

/-- A state that code which processes a line may leave behind. -/
structure Fine (base : Obj → Nat) (d : PData α) (s : CState (PData α)) : Prop where
  bal : Balanced base s
  room : RoomOk s.data
  kept : Kept d s.data

/-- An exception: a call has failed, or the model on lists has an error too. -/
def Blamed {β : Type} (fails : Fails) (r : Except PErr β) (e : CExc) : Prop :=
  (e = .callFailed ∧ ∃ c n, fails c n = true) ∨ ∃ pe, e = .perr pe ∧ r = .error pe

theorem refs_self (o : Obj) : refs (some o) o = 1 := by simp [refs]

theorem sat_saveFieldM (hu : ∀ n, fails .unicodeNew n = false) (cfg : Cfg) (mk : Str → Bool → α)
    (rq trailing : Bool) {base : Obj → Nat} (h : Balanced base s) (hr : RoomOk s.data)
    (hf : s.data.fields ≠ none) :
    Sat (saveFieldM fails cfg mk rq trailing) s
      (fun _ s' => Fine base s.data s' ∧ s'.data.abs = saveField cfg mk s.data.abs trailing)
      (fun e s' => Fine base s.data s' ∧ e = .callFailed ∧ ∃ c n, fails c n = true) := by
  rw [balanced_iff] at h
  obtain ⟨f, hf⟩ := Option.ne_none_iff_exists'.mp hf
  refine sat_bind (Q := fun d s' => s.data = d ∧ s = s') (sat_getData ⟨rfl, rfl⟩) ?_
  rintro _ _ ⟨rfl, rfl⟩
  refine sat_bind (Q := fun f s' => ∃ l o, f = (some o, saveCell cfg.quotechar s.data.field trailing) ∧ s' = ⟨l, s.data⟩ ∧
    Books (plus (total base s.data) (some o)) l) ?_ ?_
  · refine sat_fieldObj hu _ _ _ h ?_ ?_
    · exact fun l o hl => ⟨l, o, rfl, rfl, hl⟩
    · exact fun l hl hfl => ⟨⟨balanced_iff.mpr hl, hr, Kept.refl _⟩, rfl, hfl⟩
  rintro _ _ ⟨l, o, rfl, rfl, hl⟩
  have hroom : RoomOk { s.data with field := [] } := ⟨by simp, hr.2⟩
  refine sat_bind (Q := fun _ s' => s' = ⟨l, { s.data with field := [] }⟩) (sat_modData rfl) ?_
  rintro _ _ rfl
  have hown : total base s.data f ≠ 0 := by simp only [total, hf, refs_self]; omega
  refine sat_bind (Q := fun _ s' => ∃ l, Books (total base s.data) l ∧
    s' = ⟨l, { s.data with field := [] }⟩) ?_ ?_
  · cases rq with
    | true =>
      refine sat_appendTuple (s := ⟨l, { s.data with field := [] }⟩) hl hf hown
        (fun l hl => ⟨l, hl, rfl⟩) (fun l hl hfl => ⟨⟨?_, hroom, ⟨rfl, rfl, rfl⟩⟩, rfl, hfl⟩)
      exact balanced_iff.mpr hl
    | false =>
      refine sat_appendField (s := ⟨l, { s.data with field := [] }⟩) hl hf hown
        (fun l hl => ⟨l, hl, rfl⟩) (fun l hl hfl => ⟨⟨?_, hroom, ⟨rfl, rfl, rfl⟩⟩, rfl, hfl⟩)
      exact balanced_iff.mpr hl
  rintro _ _ ⟨l, hl, rfl⟩
  exact sat_modData ⟨⟨balanced_iff.mpr hl, ⟨by simp, hr.2⟩, ⟨rfl, rfl, rfl⟩⟩, rfl⟩

theorem sat_growBuffM {base : Obj → Nat} (h : Balanced base s) (hr : RoomOk s.data)
    (hlen : s.data.field.length = s.data.bufSize) :
    Sat (growBuffM fails) s
      (fun _ s' => Fine base s.data s' ∧ s'.data.abs = s.data.abs ∧ s'.data.buf ≠ none ∧
        s'.data.field.length < s'.data.bufSize)
      (fun e s' => Fine base s.data s' ∧ e = .callFailed ∧ ∃ c n, fails c n = true) := by
  rw [balanced_iff] at h
  refine sat_bind (Q := fun d s' => s.data = d ∧ s = s') (sat_getData ⟨rfl, rfl⟩) ?_
  rintro _ _ ⟨rfl, rfl⟩
  refine sat_bind (Q := fun p s' => ∃ l, s' = ⟨l, s.data⟩ ∧
    ((p = none ∧ Books (total base s.data) l ∧ ∃ c n, fails c n = true) ∨
      ∃ o, p = some o ∧ Books (plus (total base s.data) (some o)) l)) ?_ ?_
  · refine books_newObj h ?_ ?_
    · rintro l hl ⟨n, hn⟩
      exact ⟨l, rfl, .inl ⟨rfl, hl, _, n, hn⟩⟩
    · intro l o hl _
      exact ⟨l, rfl, .inr ⟨o, rfl, hl⟩⟩
  rintro _ _ ⟨l, rfl, ⟨rfl, hl, hfl⟩ | ⟨o, rfl, hl⟩⟩
  · exact ⟨⟨balanced_iff.mpr hl, hr, Kept.refl _⟩, rfl, hfl⟩
  simp only [reduceCtorEq, if_false]
  have e : plus (total base s.data) (some o) =
      plus (total base { s.data with buf := some o }) s.data.buf := by
    funext x; simp only [plus, total]; omega
  rw [e] at hl
  refine sat_bind (Q := fun _ s' => ∃ l, Books (total base { s.data with buf := some o }) l ∧
    s' = ⟨l, s.data⟩) (books_xdecref (s := ⟨l, s.data⟩) hl fun l hl => ⟨l, hl, rfl⟩) ?_
  rintro _ _ ⟨l, hl, rfl⟩
  have hb : s.data.field.length < if s.data.bufSize ≠ 0 then 2 * s.data.bufSize else 4096 := by
    split <;> omega
  exact sat_modData ⟨⟨balanced_iff.mpr hl, ⟨by simpa using Nat.le_of_lt hb, by simp⟩,
    ⟨rfl, rfl, rfl⟩⟩, rfl, by simp, hb⟩

theorem sat_useMember {base : Obj → Nat} (h : Balanced base s) (hb : s.data.buf ≠ none)
    {P : Unit → CState (PData α) → Prop} {E} (hP : P () s) : Sat (useObj s.data.buf) s P E := by
  obtain ⟨b, hb⟩ := Option.ne_none_iff_exists'.mp hb
  rw [hb]
  refine books_useObj (balanced_iff.mp h) ?_ hP
  simp only [total, hb, refs_self]
  omega

theorem sat_pushChar {base : Obj → Nat} {d0 : PData α} (c : Char) (h : Fine base d0 s)
    (hb : s.data.buf ≠ none) (hlen : s.data.field.length < s.data.bufSize) :
    Sat (do
        let d ← getData
        useObj d.buf
        modData fun d => { d with field := d.field ++ [c] } : PM α Unit) s
      (fun _ s' => Fine base d0 s' ∧
        s'.data.abs = { s.data.abs with field := s.data.field ++ [c] })
      (fun _ _ => False) := by
  refine sat_bind (Q := fun d s' => s.data = d ∧ s = s') (sat_getData ⟨rfl, rfl⟩) ?_
  rintro _ _ ⟨rfl, rfl⟩
  refine sat_bind (Q := fun _ s' => s = s') (sat_useMember h.bal hb rfl) ?_
  rintro _ _ rfl
  refine sat_modData ⟨⟨balanced_iff.mpr (balanced_iff.mp h.bal), ⟨?_, h.room.2⟩,
    ⟨h.kept.iter, h.kept.fields, h.kept.script⟩⟩, rfl⟩
  simp only [List.length_append, List.length_singleton]
  omega

theorem sat_addCharM (cfg : Cfg) (c : Char) {base : Obj → Nat} (h : Balanced base s)
    (hr : RoomOk s.data) :
    Sat (addCharM fails cfg c) s
      (fun _ s' => Fine base s.data s' ∧ addChar cfg s.data.abs c = .ok s'.data.abs)
      (fun e s' => Fine base s.data s' ∧ Blamed fails (addChar cfg s.data.abs c) e) := by
  refine sat_bind (Q := fun d s' => s.data = d ∧ s = s') (sat_getData ⟨rfl, rfl⟩) ?_
  rintro _ _ ⟨rfl, rfl⟩
  by_cases hl : (s.data.field.length : Int) ≥ cfg.fieldLimit
  · rw [if_pos hl]
    refine sat_raise ⟨⟨h, hr, Kept.refl _⟩, .inr ⟨_, rfl, ?_⟩⟩
    simp [addChar, PData.abs, hl]
  · rw [if_neg hl]
    have hok : ∀ f, addChar cfg s.data.abs c = .ok { s.data.abs with field := f } ↔
        f = s.data.field ++ [c] := by
      intro f
      simp only [addChar, PData.abs, hl, if_false, Except.ok.injEq, PObj.mk.injEq, true_and,
        and_true]
      exact eq_comm
    by_cases hg : s.data.field.length = s.data.bufSize
    · rw [if_pos hg]
      refine sat_bind (Q := fun _ s' => Fine base s.data s' ∧ s'.data.abs = s.data.abs ∧
        s'.data.buf ≠ none ∧ s'.data.field.length < s'.data.bufSize)
        ((sat_growBuffM h hr hg).mono (fun _ _ h => h) fun _ _ h => ⟨h.1, .inl h.2⟩) ?_
      rintro _ s' ⟨hf, ha, hb, hlen⟩
      refine (sat_pushChar c hf hb hlen).mono ?_ (fun _ _ h => h.elim)
      rintro _ s'' ⟨hf', ha'⟩
      refine ⟨hf', ?_⟩
      rw [ha', ha]
      refine (hok _).mpr ?_
      have : s'.data.field = s.data.field := congrArg PObj.field ha
      rw [this]
    · rw [if_neg hg]
      refine sat_bind (Q := fun _ s' => s = s') (sat_pure rfl) ?_
      rintro _ _ rfl
      have hlen : s.data.field.length < s.data.bufSize := by have := hr.1; omega
      refine (sat_pushChar c ⟨h, hr, Kept.refl _⟩ ?_ hlen).mono ?_ (fun _ _ h => h.elim)
      · intro hb
        have := hr.2 hb
        omega
      · rintro _ s'' ⟨hf', ha'⟩
        exact ⟨hf', by rw [ha']; exact (hok _).mpr rfl⟩

/-- The steps on the model on lists. -/
def stepP (cfg : Cfg) (mk : Str → Bool → α) (o : PObj α) : Step → Except PErr (PObj α)
  | .add c => addChar cfg o c
  | .save => .ok (saveField cfg mk o false)
  | .goto st => .ok (o.to st)
  | .fail e => .error e

def stepsP (cfg : Cfg) (mk : Str → Bool → α) : PObj α → List Step → Except PErr (PObj α)
  | o, [] => .ok o
  | o, p :: ps =>
    match stepP cfg mk o p with
    | .error e => .error e
    | .ok o' => stepsP cfg mk o' ps

theorem sat_stepM (hu : ∀ n, fails .unicodeNew n = false) (o : POpts) (mk : Str → Bool → α)
    (p : Step) {base : Obj → Nat} (h : Balanced base s) (hr : RoomOk s.data)
    (hf : s.data.fields ≠ none) :
    Sat (stepM fails o mk p) s
      (fun _ s' => Fine base s.data s' ∧ stepP o.cfg mk s.data.abs p = .ok s'.data.abs)
      (fun e s' => Fine base s.data s' ∧ Blamed fails (stepP o.cfg mk s.data.abs p) e) := by
  cases p with
  | add c => exact sat_addCharM o.cfg c h hr
  | save =>
    exact (sat_saveFieldM hu o.cfg mk o.returnQuoted false h hr hf).mono
      (fun _ s' h => ⟨h.1, by rw [h.2]; rfl⟩) fun _ _ h => ⟨h.1, .inl h.2⟩
  | goto st =>
    have h1 : Fine base s.data ⟨s.led, { s.data with state := st }⟩ :=
      ⟨balanced_iff.mpr (balanced_iff.mp h), hr, ⟨rfl, rfl, rfl⟩⟩
    have h2 : stepP o.cfg mk s.data.abs (.goto st) =
      .ok (PData.abs { s.data with state := st }) := rfl
    show Fine base s.data _ ∧ _
    exact ⟨h1, h2⟩
  | fail e => exact sat_raise ⟨⟨h, hr, Kept.refl _⟩, .inr ⟨e, rfl, rfl⟩⟩

theorem Fine.rebase {base : Obj → Nat} {d d' : PData α} {s' : CState (PData α)}
    (h : Fine base d' s') (hk : Kept d d') : Fine base d s' :=
  ⟨h.bal, h.room, hk.trans h.kept⟩

theorem sat_stepsM (hu : ∀ n, fails .unicodeNew n = false) (o : POpts) (mk : Str → Bool → α)
    {base : Obj → Nat} : ∀ (ps : List Step) (s : CState (PData α)), Balanced base s →
    RoomOk s.data → s.data.fields ≠ none →
    Sat (stepsM fails o mk ps) s
      (fun _ s' => Fine base s.data s' ∧ stepsP o.cfg mk s.data.abs ps = .ok s'.data.abs)
      (fun e s' => Fine base s.data s' ∧ Blamed fails (stepsP o.cfg mk s.data.abs ps) e)
  | [], _, h, hr, _ => sat_pure ⟨⟨h, hr, Kept.refl _⟩, rfl⟩
  | p :: ps, s, h, hr, hf => by
    refine sat_bind (Q := fun _ s' => Fine base s.data s' ∧
      stepP o.cfg mk s.data.abs p = .ok s'.data.abs)
      ((sat_stepM hu o mk p h hr hf).mono (fun _ _ h => h) ?_) ?_
    · rintro e s' ⟨hs, he⟩
      refine ⟨hs, ?_⟩
      rcases he with he | ⟨pe, he, hp⟩
      · exact .inl he
      · exact .inr ⟨pe, he, by rw [stepsP, hp]⟩
    · rintro _ s' ⟨hs, hp⟩
      have e : stepsP o.cfg mk s.data.abs (p :: ps) = stepsP o.cfg mk s'.data.abs ps := by
        rw [stepsP, hp]
      rw [e]
      exact (sat_stepsM hu o mk ps s' hs.bal hs.room (by rw [hs.kept.fields]; exact hf)).mono
        (fun _ _ h => ⟨h.1.rebase hs.kept, h.2⟩) fun _ _ h => ⟨h.1.rebase hs.kept, h.2⟩

end parser

theorem addChar_state {cfg : Cfg} {o o' : PObj α} {c : Char} (h : addChar cfg o c = .ok o') :
    o'.state = o.state := by
  unfold addChar at h
  split at h
  · cases h
  · cases h; rfl

/-- The list of steps is what `parse_process_char` does. -/
theorem processChar_plan (cfg : Cfg) (mk : Str → Bool → α) (o : PObj α) (u v : Char) :
    processChar cfg mk o u v = stepsP cfg mk o (plan cfg o.state u v) := by
  have hsf : ∀ o : PObj α, stepStartField cfg mk o u = stepsP cfg mk o (planStartField cfg u) := by
    intro o
    unfold stepStartField planStartField
    split
    · rfl
    split
    · simp only [stepsP, stepP]; cases addChar cfg o u <;> rfl
    split
    · rfl
    split
    · rfl
    · simp only [stepsP, stepP]; cases addChar cfg o u <;> rfl
  have hif : ∀ o : PObj α, stepInField cfg mk o u = stepsP cfg mk o (planInField cfg u) := by
    intro o
    unfold stepInField planInField
    split
    · rfl
    split
    · rfl
    split
    · simp only [stepsP, stepP]; cases addChar cfg o u <;> rfl
    split
    · rfl
    · simp only [stepsP, stepP]; cases addChar cfg o u <;> rfl
  unfold processChar plan
  cases hs : o.state with
  | startRecord =>
    simp only
    split
    · rfl
    split
    · rfl
    · rw [hsf]; rfl
  | startField => exact hsf o
  | inField => exact hif o
  | afterEscapedCRNL =>
    simp only
    split
    · rfl
    · exact hif o
  | escapedChar =>
    simp only
    split
    · simp only [stepsP, stepP]; cases addChar cfg o u <;> rfl
    · by_cases h1 : u ≠ NUL ∧ u ≠ cfg.delimiter ∧ u ≠ cfg.escapechar ∧ u ≠ cfg.quotechar
      · simp only [h1, not_false_eq_true, and_self, if_true, if_false, List.cons_append,
          List.nil_append, stepsP, stepP, ne_eq]
        cases h2 : addChar cfg o cfg.escapechar with
        | error e => rfl
        | ok o1 =>
          show (do let o ← addChar cfg o1 u; Except.ok (o.to .inField)) = _
          dsimp only
          cases addChar cfg o1 u <;> rfl
      · rw [if_neg h1, if_neg h1]
        by_cases h3 : u = NUL
        · simp only [h3, if_true]; rfl
        · simp only [h3, if_false, List.nil_append, List.cons_append, stepsP, stepP]
          show (do let o ← addChar cfg o u; Except.ok (o.to .inField)) = _
          cases addChar cfg o u <;> rfl
  | inQuotedField =>
    simp only
    split
    · rfl
    split
    · rfl
    split
    · split
      · rfl
      split
      · rfl
      · simp only [stepsP, stepP]; cases addChar cfg o u <;> rfl
    · simp only [stepsP, stepP]; cases addChar cfg o u <;> rfl
  | escapeInQuotedField =>
    simp only
    by_cases h1 : u ≠ cfg.escapechar ∧ u ≠ cfg.delimiter ∧ u ≠ cfg.quotechar ∧ u ≠ NUL
    · rw [if_pos h1, if_pos h1]
      simp only [List.cons_append, List.nil_append, stepsP, stepP]
      cases h2 : addChar cfg o cfg.escapechar with
      | error e => rfl
      | ok o1 =>
        show (do let o ← addChar cfg o1 _; Except.ok (o.to .inQuotedField)) = _
        dsimp only
        cases addChar cfg o1 (if u = NUL then '\n' else u) <;> rfl
    · rw [if_neg h1, if_neg h1]
      simp only [List.nil_append, stepsP, stepP]
      show (do let o ← addChar cfg o _; Except.ok (o.to .inQuotedField)) = _
      cases addChar cfg o (if u = NUL then '\n' else u) <;> rfl
  | quoteInQuotedField =>
    simp only
    split
    · simp only [stepsP, stepP]; cases addChar cfg o u <;> rfl
    split
    · rfl
    split
    · rfl
    split
    · simp only [stepsP, stepP]; cases addChar cfg o u <;> rfl
    · rfl
  | eatCRNL =>
    simp only
    split
    · rfl
    split
    · rfl
    · rfl

end Clever
