import Verif.Proofs.Ownership

/-!
# The ledger over a call of `Parser_iternext` and over the life of a parser object
-/

namespace Clever

open Spec

variable {α : Type} {s : CState (PData α)} {fails : Fails} {base : Obj → Nat}

theorem total_plus (base : Obj → Nat) (d : PData α) (p : Option Obj) :
    total (plus base p) d = plus (total base d) p := by
  funext x; simp only [total, plus]; omega

theorem sat_processCharM (hu : ∀ n, fails .unicodeNew n = false) (o : POpts)
    (mk : Str → Bool → α) (u v : Char) (h : Balanced base s) (hr : RoomOk s.data)
    (hf : s.data.fields ≠ none) :
    Sat (processCharM fails o mk u v) s
      (fun _ s' => Fine base s.data s' ∧ processChar o.cfg mk s.data.abs u v = .ok s'.data.abs)
      (fun e s' => Fine base s.data s' ∧
        Blamed fails (processChar o.cfg mk s.data.abs u v) e) := by
  refine sat_bind (Q := fun d s' => s.data = d ∧ s = s') (sat_getData ⟨rfl, rfl⟩) ?_
  rintro _ _ ⟨rfl, rfl⟩
  rw [processChar_plan]
  exact sat_stepsM hu o mk _ s h hr hf

/-- Release of a reference held besides those of the parser. -/
theorem sat_release {p : Obj} (h : Balanced (plus base (some p)) s)
    {P : Unit → CState (PData α) → Prop} {E}
    (hP : ∀ l, Balanced base ⟨l, s.data⟩ → P () ⟨l, s.data⟩) : Sat (decref (some p)) s P E := by
  rw [balanced_iff, total_plus] at h
  exact books_decref h fun l hl => hP l (balanced_iff.mpr hl)

theorem sat_useHeld {p : Obj} (h : Balanced (plus base (some p)) s)
    {P : Unit → CState (PData α) → Prop} {E} (hP : P () s) : Sat (useObj (some p)) s P E := by
  rw [balanced_iff, total_plus] at h
  exact books_useObj h (plus_ne p) hP

theorem sat_feedLoopM (hu : ∀ n, fails .unicodeNew n = false) (o : POpts) (mk : Str → Bool → α)
    (p : Obj) : ∀ (l : Str) (s : CState (PData α)), Balanced (plus base (some p)) s →
    RoomOk s.data → s.data.fields ≠ none →
    Sat (feedLoopM fails o mk (some p) l) s
      (fun _ s' => Fine (plus base (some p)) s.data s' ∧
        feedLine o.cfg mk s.data.abs l = processChar o.cfg mk s'.data.abs NUL NUL)
      (fun e s' => Fine base s.data s' ∧ Blamed fails (feedLine o.cfg mk s.data.abs l) e)
  | [], s, h, hr, _ => sat_pure ⟨⟨h, hr, Kept.refl _⟩, rfl⟩
  | u :: rest, s, h, hr, hf => by
    refine sat_bind (Q := fun _ s' => s = s') (sat_useHeld h rfl) ?_
    rintro _ _ rfl
    by_cases hN : u = NUL
    · rw [if_pos hN]
      refine sat_bind (Q := fun _ s' => ∃ l, Balanced base ⟨l, s.data⟩ ∧ s' = ⟨l, s.data⟩)
        (sat_release h fun l hl => ⟨l, hl, rfl⟩) ?_
      rintro _ _ ⟨l, hl, rfl⟩
      exact sat_raise ⟨⟨hl, hr, Kept.refl _⟩, .inr ⟨_, rfl, by simp [feedLine, hN]⟩⟩
    · rw [if_neg hN]
      refine sat_bind (Q := fun _ s' => Fine (plus base (some p)) s.data s' ∧
        processChar o.cfg mk s.data.abs u (rest.headD NUL) = .ok s'.data.abs) ?_ ?_
      · refine sat_onError (sat_processCharM hu o mk u _ h hr hf) ?_
        rintro e s' ⟨hs, he⟩
        refine sat_release hs.bal fun l hl => ⟨⟨hl, hs.room, hs.kept⟩, ?_⟩
        rcases he with he | ⟨pe, he, hp⟩
        · exact .inl he
        · exact .inr ⟨pe, he, by rw [feedLine, if_neg hN, hp]⟩
      · rintro _ s' ⟨hs, hp⟩
        have e : feedLine o.cfg mk s.data.abs (u :: rest) =
            feedLine o.cfg mk s'.data.abs rest := by
          rw [feedLine, if_neg hN, hp]
        rw [e]
        exact (sat_feedLoopM hu o mk p rest s' hs.bal hs.room
          (by rw [hs.kept.fields]; exact hf)).mono
          (fun _ _ h => ⟨h.1.rebase hs.kept, h.2⟩) fun _ _ h => ⟨h.1.rebase hs.kept, h.2⟩

/-- What the model on lists says of one item: the parser object after it, or the error. -/
def itemP (cfg : Cfg) (mk : Str → Bool → α) (o : PObj α) : Item → Except PErr (PObj α)
  | .raise => .error .inputRaised
  | .nonstr => .error .notString
  | .str l => feedLine cfg mk o l

theorem sat_newLine {it : Item} (hi : it ≠ .raise) (h : Balanced base s)
    {P : Option Obj → CState (PData α) → Prop} {E}
    (hP : ∀ l p, Balanced (plus base (some p)) ⟨l, s.data⟩ → P (some p) ⟨l, s.data⟩) :
    Sat (newLine it) s P E := by
  unfold Sat newLine
  simp only [hi, if_false]
  have h2 := balanced_iff.mp h
  refine hP _ _ ?_
  refine balanced_iff.mpr ?_
  rw [total_plus]
  have h3 : Books (plus (total base s.data) (some (.made s.led.next)))
      (Ledger.add { s.led with next := s.led.next + 1 } (.made s.led.next)) := by
    refine ⟨?_, ?_⟩
    · funext x
      have := congrFun h2.1 x
      simp only [Ledger.add, plus, refs, this, Option.some.injEq]
      by_cases hx : x = .made s.led.next
      · simp [hx]
      · simp [hx, Ne.symm hx]
    · intro n hn
      have h4 := h2.2 n (by simp [Ledger.add] at hn; omega)
      simp only [plus, h4, refs]
      have : s.led.next ≠ n := by simp [Ledger.add] at hn; omega
      simp [this]
  exact h3

theorem sat_clearFields (h : Balanced base s) {P : Unit → CState (PData α) → Prop} {E}
    (hP : ∀ l, Balanced base ⟨l, { s.data with fields := none }⟩ →
      P () ⟨l, { s.data with fields := none }⟩) : Sat clearFields s P E := by
  refine sat_bind (Q := fun d s' => s.data = d ∧ s = s') (sat_getData ⟨rfl, rfl⟩) ?_
  rintro _ _ ⟨rfl, rfl⟩
  refine sat_bind (Q := fun _ s' => s' = ⟨s.led, { s.data with fields := none }⟩)
    (sat_modData rfl) ?_
  rintro _ _ rfl
  rw [balanced_iff] at h
  have e : total base s.data = plus (total base { s.data with fields := none }) s.data.fields := by
    funext x; simp [plus, total, refs]; omega
  rw [e] at h
  exact books_xdecref (s := ⟨s.led, { s.data with fields := none }⟩) h
    fun l hl => hP l (balanced_iff.mpr hl)

/-- A state in which a call of `Parser_iternext` may leave a parser. -/
structure Safe (base : Obj → Nat) (d : PData α) (s : CState (PData α)) : Prop where
  bal : Balanced base s
  room : RoomOk s.data
  iter : s.data.inputIter = d.inputIter

theorem sat_itemM (hu : ∀ n, fails .unicodeNew n = false) (o : POpts) (mk : Str → Bool → α)
    (it : Item) (h : Balanced base s) (hr : RoomOk s.data) (hf : s.data.fields ≠ none) :
    Sat (itemM fails o mk it) s
      (fun _ s' => Fine base s.data s' ∧ itemP o.cfg mk s.data.abs it = .ok s'.data.abs)
      (fun e s' => Safe base s.data s' ∧ s'.data.script = s.data.script ∧
        Blamed fails (itemP o.cfg mk s.data.abs it) e) := by
  by_cases hi : it = .raise
  · subst hi
    exact ⟨⟨h, hr, rfl⟩, rfl, .inr ⟨_, rfl, rfl⟩⟩
  · refine sat_bind (Q := fun p s' => ∃ l q, p = some q ∧
      Balanced (plus base (some q)) ⟨l, s.data⟩ ∧ s' = ⟨l, s.data⟩)
      (sat_newLine hi h fun l p hl => ⟨l, p, rfl, hl, rfl⟩) ?_
    rintro _ _ ⟨l, q, rfl, hl, rfl⟩
    rw [if_neg hi]
    refine sat_onError (F := fun e s' => Fine base s.data s' ∧
      Blamed fails (itemP o.cfg mk s.data.abs it) e) ?_ ?_
    · cases it with
      | raise => exact absurd rfl hi
      | nonstr =>
        refine sat_bind (Q := fun _ s' => s' = ⟨l, s.data⟩) (sat_useHeld hl rfl) ?_
        rintro _ _ rfl
        refine sat_bind (Q := fun _ s' => ∃ l, Balanced base ⟨l, s.data⟩ ∧ s' = ⟨l, s.data⟩)
          (sat_release hl fun l hl => ⟨l, hl, rfl⟩) ?_
        rintro _ _ ⟨l, hl, rfl⟩
        exact sat_raise ⟨⟨hl, hr, Kept.refl _⟩, .inr ⟨_, rfl, rfl⟩⟩
      | str x =>
        refine sat_bind (Q := fun _ s' => Fine (plus base (some q)) s.data s' ∧
          feedLine o.cfg mk s.data.abs x = processChar o.cfg mk s'.data.abs NUL NUL)
          ((sat_feedLoopM hu o mk q x ⟨l, s.data⟩ hl hr hf).mono (fun _ _ h => h)
            fun _ _ h => h) ?_
        rintro _ s' ⟨hs, hp⟩
        refine sat_bind (Q := fun _ s'' => ∃ l, Balanced base ⟨l, s'.data⟩ ∧ s'' = ⟨l, s'.data⟩)
          (sat_release hs.bal fun l hl => ⟨l, hl, rfl⟩) ?_
        rintro _ _ ⟨l, hl, rfl⟩
        show Sat _ _ (fun _ s' => Fine base s.data s' ∧
          feedLine o.cfg mk s.data.abs x = .ok s'.data.abs) (fun e s' => Fine base s.data s' ∧
          Blamed fails (feedLine o.cfg mk s.data.abs x) e)
        rw [hp]
        exact (sat_processCharM (s := ⟨l, s'.data⟩) hu o mk NUL NUL hl hs.room
          (by rw [hs.kept.fields]; exact hf)).mono
          (fun _ _ h => ⟨h.1.rebase hs.kept, h.2⟩) fun _ _ h => ⟨h.1.rebase hs.kept, h.2⟩
    · rintro e s' ⟨hs, he⟩
      exact sat_clearFields hs.bal fun l hl => ⟨⟨hl, hs.room, hs.kept.iter⟩, hs.kept.script, he⟩

theorem sat_returnFields (h : Balanced base s) (hf : s.data.fields ≠ none)
    {P : Next α → CState (PData α) → Prop} {E}
    (hP : ∀ l, Balanced base ⟨l, { s.data with fields := none }⟩ →
      P (.row s.data.cells) ⟨l, { s.data with fields := none }⟩) : Sat returnFields s P E := by
  obtain ⟨f, hf⟩ := Option.ne_none_iff_exists'.mp hf
  refine sat_bind (Q := fun d s' => s.data = d ∧ s = s') (sat_getData ⟨rfl, rfl⟩) ?_
  rintro _ _ ⟨rfl, rfl⟩
  refine sat_bind (Q := fun _ s' => s' = ⟨s.led, { s.data with fields := none }⟩)
    (sat_modData rfl) ?_
  rintro _ _ rfl
  rw [balanced_iff] at h
  have e : total base s.data = plus (total base { s.data with fields := none }) (some f) := by
    funext x; simp [plus, total, refs, hf]; omega
  rw [e] at h
  rw [hf]
  simp only [reduceCtorEq, if_false]
  refine sat_bind (Q := fun _ s' => ∃ l, Balanced base ⟨l, { s.data with fields := none }⟩ ∧
    s' = ⟨l, { s.data with fields := none }⟩)
    (books_decref (s := ⟨s.led, { s.data with fields := none }⟩) h
      fun l hl => ⟨l, balanced_iff.mpr hl, rfl⟩) ?_
  rintro _ _ ⟨l, hl, rfl⟩
  exact sat_pure (hP l hl)

/-- What a call returns, in the terms of the model on lists. -/
def Next.out : Next α → Outcome α
  | .row r => .row r
  | .stop => .stop

theorem sat_endInputM (hu : ∀ n, fails .unicodeNew n = false) (o : POpts) (mk : Str → Bool → α)
    (h : Balanced base s) (hr : RoomOk s.data) (hf : s.data.fields ≠ none) :
    Sat (endInputM fails o mk) s
      (fun r s' => Safe base s.data s' ∧ s'.data.script = s.data.script ∧
        nextRowFrom o.cfg mk s.data.abs [] = (r.out, []))
      (fun e s' => Safe base s.data s' ∧ s'.data.script = s.data.script ∧
        ((e = .callFailed ∧ ∃ c n, fails c n = true) ∨
          ∃ pe, e = .perr pe ∧ nextRowFrom o.cfg mk s.data.abs [] = (.error pe, []))) := by
  refine sat_bind (Q := fun d s' => s.data = d ∧ s = s') (sat_getData ⟨rfl, rfl⟩) ?_
  rintro _ _ ⟨rfl, rfl⟩
  by_cases hc : s.data.field ≠ [] ∨ s.data.state = .inQuotedField
  · rw [if_pos hc]
    have hc' : s.data.abs.field ≠ [] ∨ s.data.abs.state = .inQuotedField := hc
    by_cases hstr : o.cfg.strict = true
    · rw [hstr]
      refine sat_bind (Q := fun _ _ => False) ?_ (fun _ _ h => h.elim)
      refine sat_onError (F := fun e s' => e = .perr .unexpectedEnd ∧ s = s')
        (sat_raise ⟨rfl, rfl⟩) ?_
      rintro _ _ ⟨rfl, rfl⟩
      refine sat_clearFields h fun l hl => ⟨⟨hl, hr, rfl⟩, rfl, .inr ⟨_, rfl, ?_⟩⟩
      simp [nextRowFrom, hc', hstr]
    · rw [if_neg hstr]
      refine sat_bind (Q := fun _ s' => Fine base s.data s' ∧
        s'.data.abs = saveField o.cfg mk s.data.abs true) ?_ ?_
      · refine sat_onError (sat_saveFieldM hu o.cfg mk o.returnQuoted true h hr hf) ?_
        rintro e s' ⟨hs, he⟩
        exact sat_clearFields hs.bal fun l hl =>
          ⟨⟨hl, hs.room, hs.kept.iter⟩, hs.kept.script, .inl he⟩
      · rintro _ s' ⟨hs, ha⟩
        refine sat_returnFields hs.bal (by rw [hs.kept.fields]; exact hf) fun l hl =>
          ⟨⟨hl, hs.room, hs.kept.iter⟩, hs.kept.script, ?_⟩
        have : s'.data.cells = (saveField o.cfg mk s.data.abs true).fields :=
          congrArg PObj.fields ha
        simp [nextRowFrom, hc', hstr, Next.out, this]
  · rw [if_neg hc]
    refine sat_pure ⟨⟨h, hr, rfl⟩, rfl, ?_⟩
    have hc' : ¬ (s.data.abs.field ≠ [] ∨ s.data.abs.state = .inQuotedField) := hc
    simp only [nextRowFrom, hc', if_false, Next.out]

theorem sat_loopM (hu : ∀ n, fails .unicodeNew n = false) (o : POpts) (mk : Str → Bool → α) :
    ∀ (n : Nat) (items : List Item) (s : CState (PData α)), items.length < n →
    s.data.script = plainScript items → Balanced base s → RoomOk s.data →
    s.data.fields ≠ none →
    Sat (loopM fails o mk n) s
      (fun r s' => Safe base s.data s' ∧ ∃ rest, s'.data.script = plainScript rest ∧
        nextRowFrom o.cfg mk s.data.abs items = (r.out, rest))
      (fun e s' => Safe base s.data s' ∧ ∃ rest, s'.data.script = plainScript rest ∧
        ((e = .callFailed ∧ ∃ c n, fails c n = true) ∨
          ∃ pe, e = .perr pe ∧ nextRowFrom o.cfg mk s.data.abs items = (.error pe, rest)))
  | 0, _, _, hn, _, _, _, _ => absurd hn (by omega)
  | n + 1, items, s, hn, hsc, h, hr, hf => by
    refine sat_bind (Q := fun d s' => s.data = d ∧ s = s') (sat_getData ⟨rfl, rfl⟩) ?_
    rintro _ _ ⟨rfl, rfl⟩
    rw [hsc]
    cases items with
    | nil =>
      exact (sat_endInputM hu o mk h hr hf).mono
        (fun _ _ h => ⟨h.1, [], by rw [h.2.1, hsc], h.2.2⟩)
        fun _ _ h => ⟨h.1, [], by rw [h.2.1, hsc], h.2.2⟩
    | cons it rest =>
      simp only [plainScript, List.map_cons]
      have hb : Balanced base ⟨s.led, { s.data with script := plainScript rest }⟩ :=
        balanced_iff.mpr (balanced_iff.mp h)
      refine sat_bind (Q := fun _ s' => s' = ⟨s.led, { s.data with script := plainScript rest }⟩)
        (sat_modData rfl) ?_
      rintro _ _ rfl
      have hnext : nextRowFrom o.cfg mk s.data.abs (it :: rest) =
          match itemP o.cfg mk s.data.abs it with
          | .error e => (.error e, rest)
          | .ok o' =>
            if o'.state = .startRecord then (.row o'.fields, rest)
            else nextRowFrom o.cfg mk o' rest := by
        cases it <;> rfl
      refine sat_bind (Q := fun _ s' =>
        Fine base { s.data with script := plainScript rest } s' ∧
        itemP o.cfg mk s.data.abs it = .ok s'.data.abs)
        ((sat_itemM (s := ⟨s.led, { s.data with script := plainScript rest }⟩) hu o mk it hb hr
          hf).mono (fun _ _ h => h) ?_) ?_
      · rintro e s' ⟨hs, hsc', he⟩
        refine ⟨⟨hs.bal, hs.room, hs.iter⟩, rest, hsc', ?_⟩
        rcases he with he | ⟨pe, he, hp⟩
        · exact .inl he
        · refine .inr ⟨pe, he, ?_⟩
          have hp' : itemP o.cfg mk s.data.abs it = .error pe := hp
          rw [hnext, hp']
      · rintro _ s' ⟨hs, hp⟩
        rw [hnext, hp]
        refine sat_bind (Q := fun d s'' => s'.data = d ∧ s' = s'') (sat_getData ⟨rfl, rfl⟩) ?_
        rintro _ _ ⟨rfl, rfl⟩
        have hf' : s'.data.fields ≠ none := by rw [hs.kept.fields]; exact hf
        by_cases hst : s'.data.state = .startRecord
        · rw [if_pos hst]
          have hst' : s'.data.abs.state = .startRecord := hst
          simp only [hst', if_true]
          exact sat_returnFields hs.bal hf' fun l hl =>
            ⟨⟨hl, hs.room, hs.kept.iter⟩, rest, hs.kept.script, rfl⟩
        · rw [if_neg hst]
          have hst' : ¬ s'.data.abs.state = .startRecord := hst
          simp only [hst', if_false]
          exact (sat_loopM hu o mk n rest s' (by simp at hn; omega) hs.kept.script hs.bal hs.room
            hf').mono
            (fun _ _ h => ⟨⟨h.1.bal, h.1.room, h.1.iter.trans hs.kept.iter⟩, h.2⟩)
            fun _ _ h => ⟨⟨h.1.bal, h.1.room, h.1.iter.trans hs.kept.iter⟩, h.2⟩

theorem sat_parseResetM (h : Balanced base s) (hr : RoomOk s.data) :
    Sat (parseResetM fails) s
      (fun _ s' => Safe base s.data s' ∧ s'.data.script = s.data.script ∧
        s'.data.fields ≠ none ∧ s'.data.abs = PObj.init ∧ s'.data.buf = s.data.buf ∧
        ∀ x, total base s.data x ≠ 0 → s'.data.fields ≠ some x)
      (fun e s' => Safe base s.data s' ∧ s'.data.script = s.data.script ∧
        s'.data.fields = none ∧ s'.data.buf = s.data.buf ∧
        e = .callFailed ∧ ∃ c n, fails c n = true) := by
  rw [balanced_iff] at h
  refine sat_bind (Q := fun d s' => s.data = d ∧ s = s') (sat_getData ⟨rfl, rfl⟩) ?_
  rintro _ _ ⟨rfl, rfl⟩
  refine sat_bind (Q := fun p s' => ∃ l, s' = ⟨l, s.data⟩ ∧
    ((p = none ∧ Books (total base s.data) l ∧ ∃ c n, fails c n = true) ∨
      ∃ o, p = some o ∧ Books (plus (total base s.data) (some o)) l ∧ total base s.data o = 0))
    ?_ ?_
  · refine books_newObj h ?_ ?_
    · rintro l hl ⟨n, hn⟩
      exact ⟨l, rfl, .inl ⟨rfl, hl, _, n, hn⟩⟩
    · intro l o hl h0
      exact ⟨l, rfl, .inr ⟨o, rfl, hl, h0⟩⟩
  rintro p _ ⟨l, rfl, hp⟩
  have hbook : Books (plus (total base { s.data with fields := p }) s.data.fields) l := by
    rcases hp with ⟨rfl, hl, _⟩ | ⟨o, rfl, hl, _⟩
    · have e : total base s.data =
          plus (total base { s.data with fields := none }) s.data.fields := by
        funext x; simp [plus, total, refs]; omega
      rwa [← e]
    · have e : plus (total base s.data) (some o) =
          plus (total base { s.data with fields := some o }) s.data.fields := by
        funext x; simp only [plus, total]; omega
      rwa [← e]
  refine sat_bind (Q := fun _ s' => s' = ⟨l, { s.data with
    fields := p, cells := if p = none then s.data.cells else [] }⟩) (sat_modData rfl) ?_
  rintro _ _ rfl
  refine sat_bind (Q := fun _ s' => ∃ l, Books (total base { s.data with fields := p }) l ∧
    s' = ⟨l, { s.data with fields := p, cells := if p = none then s.data.cells else [] }⟩)
    (books_xdecref (s := ⟨l, { s.data with
      fields := p, cells := if p = none then s.data.cells else [] }⟩) hbook
      fun l hl => ⟨l, hl, rfl⟩) ?_
  rintro _ _ ⟨l, hl, rfl⟩
  rcases hp with ⟨rfl, _, hfl⟩ | ⟨o, rfl, _, h0⟩
  · exact ⟨⟨balanced_iff.mpr hl, hr, rfl⟩, rfl, rfl, rfl, rfl, hfl⟩
  · refine ⟨⟨balanced_iff.mpr hl, ⟨by simp, hr.2⟩, rfl⟩, rfl, by simp, rfl, rfl, ?_⟩
    rintro x hx ⟨⟩
    exact hx h0

theorem sat_iternextM (hu : ∀ n, fails .unicodeNew n = false) (o : POpts) (mk : Str → Bool → α)
    (items : List Item) (hsc : s.data.script = plainScript items)
    (h : Balanced base s) (hr : RoomOk s.data) :
    Sat (iternextM fails o mk) s
      (fun r s' => Safe base s.data s' ∧ ∃ rest, s'.data.script = plainScript rest ∧
        nextRow o.cfg mk items = (r.out, rest))
      (fun e s' => Safe base s.data s' ∧ ∃ rest, s'.data.script = plainScript rest ∧
        ((e = .cleared ∧ s.data.inputIter = none) ∨
         (e = .callFailed ∧ ∃ c n, fails c n = true) ∨
          ∃ pe, e = .perr pe ∧ nextRow o.cfg mk items = (.error pe, rest))) := by
  refine sat_bind (Q := fun d s' => s.data = d ∧ s = s') (sat_getData ⟨rfl, rfl⟩) ?_
  rintro _ _ ⟨rfl, rfl⟩
  by_cases hi : s.data.inputIter = none
  · rw [if_pos hi]
    exact sat_raise ⟨⟨h, hr, rfl⟩, items, hsc, .inl ⟨rfl, hi⟩⟩
  · rw [if_neg hi]
    refine sat_bind (Q := fun _ s' => Safe base s.data s' ∧ s'.data.script = s.data.script ∧
        s'.data.fields ≠ none ∧ s'.data.abs = PObj.init)
      ((sat_parseResetM h hr).mono (fun _ _ h => ⟨h.1, h.2.1, h.2.2.1, h.2.2.2.1⟩) ?_) ?_
    · rintro e s' ⟨hs, hsc', _, _, he⟩
      exact ⟨hs, items, hsc'.trans hsc, .inr (.inl he)⟩
    · rintro _ s' ⟨hs, hsc', hf, ha⟩
      rw [nextRow, ← ha]
      refine (sat_loopM hu o mk _ items s' (by rw [hsc]; simp [plainScript]) (hsc'.trans hsc)
        hs.bal hs.room hf).mono ?_ ?_
      · rintro r s'' ⟨h1, h2⟩
        exact ⟨⟨h1.bal, h1.room, h1.iter.trans hs.iter⟩, h2⟩
      · rintro e s'' ⟨h1, rest, h2, h3⟩
        exact ⟨⟨h1.bal, h1.room, h1.iter.trans hs.iter⟩, rest, h2, .inr h3⟩

theorem sat_ignoring {β : Type} {x : PM α β} {P : β → CState (PData α) → Prop}
    {F : CExc → CState (PData α) → Prop} {Q : Unit → CState (PData α) → Prop} {E}
    (hx : Sat x s P F) (h1 : ∀ a s', P a s' → Q () s') (h2 : ∀ e s', F e s' → Q () s') :
    Sat (ignoring x) s Q E := by
  unfold Sat at hx ⊢
  unfold ignoring
  cases h : x s with
  | ok a s' => rw [h] at hx; exact h1 a s' hx
  | exc e s' => rw [h] at hx; exact h2 e s' hx
  | crash => rw [h] at hx; exact hx

theorem sat_parserClearM (h : Balanced base s) {P : Unit → CState (PData α) → Prop} {E}
    (hP : ∀ l, Balanced base ⟨l, { s.data with inputIter := none, fields := none }⟩ →
      P () ⟨l, { s.data with inputIter := none, fields := none }⟩) :
    Sat parserClearM s P E := by
  refine sat_bind (Q := fun d s' => s.data = d ∧ s = s') (sat_getData ⟨rfl, rfl⟩) ?_
  rintro _ _ ⟨rfl, rfl⟩
  refine sat_bind (Q := fun _ s' => s' = ⟨s.led, { s.data with inputIter := none }⟩)
    (sat_modData rfl) ?_
  rintro _ _ rfl
  rw [balanced_iff] at h
  have e : total base s.data =
      plus (total base { s.data with inputIter := none }) s.data.inputIter := by
    funext x; simp [plus, total, refs]; omega
  rw [e] at h
  refine sat_bind (Q := fun _ s' => ∃ l, Balanced base ⟨l, { s.data with inputIter := none }⟩ ∧
    s' = ⟨l, { s.data with inputIter := none }⟩)
    (books_xdecref (s := ⟨s.led, { s.data with inputIter := none }⟩) h
      fun l hl => ⟨l, balanced_iff.mpr hl, rfl⟩) ?_
  rintro _ _ ⟨l, hl, rfl⟩
  exact sat_clearFields (s := ⟨l, { s.data with inputIter := none }⟩) hl hP

theorem sat_usesM (hu : ∀ n, fails .unicodeNew n = false) (o : POpts) (mk : Str → Bool → α)
    {E : CExc → CState (PData α) → Prop} :
    ∀ (us : List Use) (items : List Item) (s : CState (PData α)),
    s.data.script = plainScript items → Balanced base s → RoomOk s.data →
    Sat (usesM fails o mk us) s (fun _ s' => Balanced base s' ∧ RoomOk s'.data) E
  | [], _, _, _, h, hr => sat_pure ⟨h, hr⟩
  | .next :: us, items, s, hsc, h, hr => by
    refine sat_bind (Q := fun _ s' => Safe base s.data s' ∧
      ∃ rest, s'.data.script = plainScript rest)
      (sat_ignoring (sat_iternextM hu o mk items hsc h hr)
        (fun _ _ h => ⟨h.1, _, h.2.choose_spec.1⟩) fun _ _ h => ⟨h.1, _, h.2.choose_spec.1⟩) ?_
    rintro _ s' ⟨hs, rest, hrest⟩
    exact sat_usesM hu o mk us rest s' hrest hs.bal hs.room
  | .clear :: us, items, s, hsc, h, hr => by
    refine sat_bind (Q := fun _ s' => Balanced base s' ∧ RoomOk s'.data ∧
      s'.data.script = s.data.script) (sat_parserClearM h fun l hl => ⟨hl, hr, rfl⟩) ?_
    rintro _ s' ⟨hb, hr', hs⟩
    exact sat_usesM hu o mk us items s' (hs.trans hsc) hb hr'

theorem sat_parserDeallocM (h : Balanced base s) {P : Unit → CState (PData α) → Prop} {E}
    (hP : ∀ l, Books base l → P () ⟨l, s.data⟩) : Sat parserDeallocM s P E := by
  refine sat_bind (Q := fun d s' => s.data = d ∧ s = s') (sat_getData ⟨rfl, rfl⟩) ?_
  rintro _ _ ⟨rfl, rfl⟩
  rw [balanced_iff] at h
  have e : total base s.data =
      plus (plus (plus base s.data.buf) s.data.fields) s.data.inputIter := by
    funext x; simp only [plus, total]; omega
  rw [e] at h
  refine sat_bind (Q := fun _ s' => ∃ l, Books (plus (plus base s.data.buf) s.data.fields) l ∧
    s' = ⟨l, s.data⟩) (books_xdecref h fun l hl => ⟨l, hl, rfl⟩) ?_
  rintro _ _ ⟨l, hl, rfl⟩
  refine sat_bind (Q := fun _ s' => ∃ l, Books (plus base s.data.buf) l ∧ s' = ⟨l, s.data⟩)
    (books_xdecref (s := ⟨l, s.data⟩) hl fun l hl => ⟨l, hl, rfl⟩) ?_
  rintro _ _ ⟨l, hl, rfl⟩
  exact books_xdecref (s := ⟨l, s.data⟩) hl hP

end Clever
