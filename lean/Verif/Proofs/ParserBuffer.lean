import Verif.Model.ParserBuffer

/-!
# The parser with explicit buffers refines the parser on lists
-/

namespace Clever

variable {α : Type}

/-- The list view of a parser object with buffer. -/
def BObj.abs (b : BObj α) : PObj α := ⟨b.fields, b.mem.take b.len, b.state⟩

/-- Invariant: the used part is within the buffer, and the buffer is not larger than `M`. -/
def BObj.Inv (M : Nat) (b : BObj α) : Prop := b.len ≤ b.mem.length ∧ b.mem.length ≤ M

/-- A result of the buffer model refines a result of the list model. -/
def Ref (M : Nat) (rb : Except BErr (BObj α)) (r : Except PErr (PObj α)) : Prop :=
  match r with
  | .error e => rb = .error (.perr e)
  | .ok o => ∃ b, rb = .ok b ∧ b.abs = o ∧ b.Inv M

theorem Ref.bind {M : Nat} {rb : Except BErr (BObj α)} {r : Except PErr (PObj α)}
    {f : BObj α → Except BErr (BObj α)} {g : PObj α → Except PErr (PObj α)} (h : Ref M rb r)
    (hf : ∀ b : BObj α, b.Inv M → Ref M (f b) (g b.abs)) : Ref M (rb >>= f) (r >>= g) := by
  cases r with
  | error e => simp only [Ref] at h; subst h; rfl
  | ok o =>
    obtain ⟨b, rfl, rfl, hi⟩ := h
    exact hf b hi

theorem Ref.ite {M : Nat} {c : Prop} [Decidable c] {rb rb' : Except BErr (BObj α)}
    {r r' : Except PErr (PObj α)} (h1 : c → Ref M rb r) (h2 : ¬ c → Ref M rb' r') :
    Ref M (if c then rb else rb') (if c then r else r') := by
  by_cases h : c
  · simp only [h, if_true]; exact h1 h
  · simp only [h, if_false]; exact h2 h

theorem Ref.ok {M : Nat} {b : BObj α} (h : b.Inv M) : Ref M (.ok b) (.ok b.abs) := ⟨b, rfl, rfl, h⟩

theorem Ref.error {M : Nat} (e : PErr) : Ref M (.error (.perr e) : Except BErr (BObj α)) (.error e) :=
  rfl

theorem length_memGrow {β : Type} (junk : Nat → β) (mem : List β) (n : Nat) :
    (memGrow junk mem n).length = max mem.length n := by
  simp [memGrow]; omega

theorem addCharB_ref (junk : Nat → Char) (cfg : Cfg) (M : Nat) (hM : 4096 ≤ M)
    (hM' : 2 * cfg.fieldLimit.toNat ≤ M) (b : BObj α) (hb : b.Inv M) (c : Char) :
    Ref M (addCharB junk cfg b c) (addChar cfg b.abs c) := by
  obtain ⟨h1, h2⟩ := hb
  have hlen : b.abs.field.length = b.len := by simp [BObj.abs]; omega
  unfold addCharB addChar
  rw [hlen]
  by_cases hl : (b.len : Int) ≥ cfg.fieldLimit
  · rw [if_pos hl, if_pos hl]; rfl
  · rw [if_neg hl, if_neg hl]
    by_cases hfull : b.len = b.mem.length
    · rw [if_pos hfull]
      have hg : b.len < (growBuff junk b).mem.length := by
        simp only [growBuff, length_memGrow]
        split <;> omega
      have hg' : (growBuff junk b).mem.length ≤ M := by
        simp only [growBuff, length_memGrow]
        split <;> omega
      have hlen' : (growBuff junk b).len = b.len := rfl
      have htake : (growBuff junk b).mem.take b.len = b.mem.take b.len := by
        simp only [growBuff, memGrow]
        rw [List.take_append_of_le_length (by omega)]
      simp only [memWrite, hlen', hg, if_true]
      refine ⟨_, rfl, ?_, ?_⟩
      · simp only [BObj.abs]
        congr 1
        rw [List.take_add_one, List.take_set_of_le (Nat.le_refl _), htake]
        simp [hg]
      · exact ⟨by simp; omega, by simpa using hg'⟩
    · rw [if_neg hfull]
      have hg : b.len < b.mem.length := by omega
      simp only [memWrite, hg, if_true]
      refine ⟨_, rfl, ?_, ?_⟩
      · simp only [BObj.abs]
        congr 1
        rw [List.take_add_one, List.take_set_of_le (Nat.le_refl _)]
        simp [hg]
      · exact ⟨by simp; omega, by simpa using h2⟩

theorem saveFieldB_ref (cfg : Cfg) (mk : Str → Bool → α) (M : Nat) (b : BObj α) (hb : b.Inv M)
    (tr : Bool) : Ref M (saveFieldB cfg mk b tr) (.ok (saveField cfg mk b.abs tr)) := by
  obtain ⟨h1, h2⟩ := hb
  unfold saveFieldB
  rw [memPrefix, if_pos h1]
  exact ⟨_, rfl, by simp [BObj.abs, saveField], ⟨by simp, h2⟩⟩

theorem saveFieldB_to (cfg : Cfg) (mk : Str → Bool → α) (M : Nat) (b : BObj α) (hb : b.Inv M)
    (st : PState) :
    Ref M (saveFieldB cfg mk b false >>= fun o => .ok (o.to st))
      (.ok ((saveField cfg mk b.abs false).to st)) := by
  have := Ref.bind (saveFieldB_ref cfg mk M b hb false) (f := fun o => .ok (o.to st))
    (g := fun o => .ok (o.to st)) (fun b hb => ⟨_, rfl, rfl, hb⟩)
  exact this

theorem addCharB_to (junk : Nat → Char) (cfg : Cfg) (M : Nat) (hM : 4096 ≤ M)
    (hM' : 2 * cfg.fieldLimit.toNat ≤ M) (b : BObj α) (hb : b.Inv M) (c : Char) (st : PState) :
    Ref M (addCharB junk cfg b c >>= fun o => .ok (o.to st))
      (addChar cfg b.abs c >>= fun o => .ok (o.to st)) :=
  Ref.bind (addCharB_ref junk cfg M hM hM' b hb c) (fun _ hb => ⟨_, rfl, rfl, hb⟩)

section
variable (junk : Nat → Char) (cfg : Cfg) (mk : Str → Bool → α) (M : Nat) (hM : 4096 ≤ M)
  (hM' : 2 * cfg.fieldLimit.toNat ≤ M)
include hM hM'

theorem stepStartFieldB_ref (b : BObj α) (hb : b.Inv M) (u : Char) :
    Ref M (stepStartFieldB junk cfg mk b u) (stepStartField cfg mk b.abs u) := by
  unfold stepStartFieldB stepStartField
  refine Ref.ite (fun _ => saveFieldB_to cfg mk M b hb _) (fun _ => ?_)
  refine Ref.ite (fun _ => addCharB_to junk cfg M hM hM' b hb u _) (fun _ => ?_)
  refine Ref.ite (fun _ => ⟨_, rfl, rfl, hb⟩) (fun _ => ?_)
  exact Ref.ite (fun _ => saveFieldB_ref cfg mk M b hb false)
    (fun _ => addCharB_to junk cfg M hM hM' b hb u _)

theorem stepInFieldB_ref (b : BObj α) (hb : b.Inv M) (u : Char) :
    Ref M (stepInFieldB junk cfg mk b u) (stepInField cfg mk b.abs u) := by
  unfold stepInFieldB stepInField
  refine Ref.ite (fun _ => saveFieldB_to cfg mk M b hb _) (fun _ => ?_)
  refine Ref.ite (fun _ => ⟨_, rfl, rfl, hb⟩) (fun _ => ?_)
  refine Ref.ite (fun _ => addCharB_to junk cfg M hM hM' b hb u _) (fun _ => ?_)
  exact Ref.ite (fun _ => saveFieldB_to cfg mk M b hb _)
    (fun _ => addCharB_ref junk cfg M hM hM' b hb u)

theorem processCharB_ref (b : BObj α) (hb : b.Inv M) (u v : Char) :
    Ref M (processCharB junk cfg mk b u v) (processChar cfg mk b.abs u v) := by
  obtain ⟨fs, mem, len, st⟩ := b
  cases st with
  | startRecord =>
    simp only [processCharB, processChar, BObj.abs]
    refine Ref.ite (fun _ => ⟨_, rfl, rfl, hb⟩) (fun _ => ?_)
    refine Ref.ite (fun _ => ⟨_, rfl, rfl, hb⟩) (fun _ => ?_)
    exact stepStartFieldB_ref junk cfg mk M hM hM' (BObj.to ⟨fs, mem, len, .startRecord⟩ .startField) hb u
  | startField => exact stepStartFieldB_ref junk cfg mk M hM hM' _ hb u
  | escapedChar =>
    simp only [processCharB, processChar, BObj.abs]
    refine Ref.ite (fun _ => addCharB_to junk cfg M hM hM' _ hb u _) (fun _ => ?_)
    have key : ∀ b : BObj α, b.Inv M →
        Ref M (if u = NUL then .ok (b.to .inField) else
            addCharB junk cfg b u >>= fun o => .ok (o.to .inField))
          (if u = NUL then .ok (b.abs.to .inField) else
            addChar cfg b.abs u >>= fun o => .ok (o.to .inField)) := fun b hb =>
      Ref.ite (fun _ => ⟨_, rfl, rfl, hb⟩) (fun _ => addCharB_to junk cfg M hM hM' b hb u _)
    exact Ref.ite (fun _ => Ref.bind (addCharB_ref junk cfg M hM hM' ⟨fs, mem, len, .escapedChar⟩ hb _)
      key) (fun _ => key ⟨fs, mem, len, .escapedChar⟩ hb)
  | afterEscapedCRNL =>
    simp only [processCharB, processChar, BObj.abs]
    exact Ref.ite (fun _ => ⟨_, rfl, rfl, hb⟩)
      (fun _ => stepInFieldB_ref junk cfg mk M hM hM' _ hb u)
  | inField => exact stepInFieldB_ref junk cfg mk M hM hM' _ hb u
  | inQuotedField =>
    simp only [processCharB, processChar, BObj.abs]
    refine Ref.ite (fun _ => ⟨_, rfl, rfl, hb⟩) (fun _ => ?_)
    refine Ref.ite (fun _ => ⟨_, rfl, rfl, hb⟩) (fun _ => ?_)
    refine Ref.ite (fun _ => ?_) (fun _ => addCharB_ref junk cfg M hM hM' _ hb u)
    refine Ref.ite (fun _ => ⟨_, rfl, rfl, hb⟩) (fun _ => ?_)
    exact Ref.ite (fun _ => rfl) (fun _ => addCharB_to junk cfg M hM hM' _ hb u _)
  | escapeInQuotedField =>
    simp only [processCharB, processChar, BObj.abs]
    exact Ref.ite
      (fun _ => Ref.bind (addCharB_ref junk cfg M hM hM' ⟨fs, mem, len, .escapeInQuotedField⟩ hb _)
        (fun b hb => addCharB_to junk cfg M hM hM' b hb _ _))
      (fun _ => addCharB_to junk cfg M hM hM' ⟨fs, mem, len, .escapeInQuotedField⟩ hb _ _)
  | quoteInQuotedField =>
    simp only [processCharB, processChar, BObj.abs]
    refine Ref.ite (fun _ => addCharB_to junk cfg M hM hM' _ hb u _) (fun _ => ?_)
    refine Ref.ite (fun _ => saveFieldB_to cfg mk M _ hb _) (fun _ => ?_)
    refine Ref.ite (fun _ => saveFieldB_to cfg mk M _ hb _) (fun _ => ?_)
    exact Ref.ite (fun _ => addCharB_to junk cfg M hM hM' _ hb u _) (fun _ => rfl)
  | eatCRNL =>
    simp only [processCharB, processChar, BObj.abs]
    refine Ref.ite (fun _ => ⟨_, rfl, rfl, hb⟩) (fun _ => ?_)
    exact Ref.ite (fun _ => ⟨_, rfl, rfl, hb⟩) (fun _ => rfl)

theorem feedLoopB_ref (line : Str) (n pos : Nat) (hn : n + pos = line.length) (v : Char)
    (hv : v = NUL ∨ line[pos]? = some v) (b : BObj α) (hb : b.Inv M) :
    Ref M (feedLoopB junk cfg mk line n pos v b >>= fun o => processCharB junk cfg mk o NUL NUL)
      (feedLine cfg mk b.abs (line.drop pos)) := by
  induction n generalizing pos v b with
  | zero =>
    rw [List.drop_eq_nil_of_le (by omega)]
    exact processCharB_ref junk cfg mk M hM hM' b hb NUL NUL
  | succ n ih =>
    have hpos : pos < line.length := by omega
    rw [List.drop_eq_getElem_cons hpos, feedLine, feedLoopB]
    have hu : readU line pos v = .ok line[pos] := by
      unfold readU
      split
      · rename_i h
        rcases hv with hv | hv
        · exact absurd hv h
        · rw [List.getElem?_eq_getElem hpos] at hv
          injection hv with hv
          rw [hv]
      · simp [memRead, List.getElem?_eq_getElem hpos]
    have hv' : readV line pos n = .ok ((line.drop (pos + 1)).headD NUL) := by
      unfold readV
      split
      · have : pos + 1 < line.length := by omega
        simp [memRead, List.getElem?_eq_getElem this, List.headD_eq_head?_getD]
      · rw [List.drop_eq_nil_of_le (by omega)]; rfl
    rw [hu, hv']
    simp only [bind, Except.bind]
    by_cases h0 : line[pos] = NUL
    · rw [if_pos h0, if_pos h0]; rfl
    · rw [if_neg h0, if_neg h0]
      have hstep := processCharB_ref junk cfg mk M hM hM' b hb line[pos]
        ((line.drop (pos + 1)).headD NUL)
      cases hp : processChar cfg mk b.abs line[pos] ((line.drop (pos + 1)).headD NUL) with
      | error e => rw [hp] at hstep; simp only [Ref] at hstep; rw [hstep]; rfl
      | ok o =>
        rw [hp] at hstep
        obtain ⟨b', hb', rfl, hi⟩ := hstep
        rw [hb']
        refine ih (pos + 1) (by omega) _ ?_ b' hi
        by_cases hlt : pos + 1 < line.length
        · right; simp [List.getElem?_eq_getElem hlt, List.headD_eq_head?_getD]
        · left; rw [List.drop_eq_nil_of_le (by omega)]; rfl

theorem feedLineB_ref (line : Str) (b : BObj α) (hb : b.Inv M) :
    Ref M (feedLineB junk cfg mk b line) (feedLine cfg mk b.abs line) := by
  have := feedLoopB_ref junk cfg mk M hM hM' line line.length 0 (by simp) NUL (Or.inl rfl) b hb
  simpa [feedLineB] using this

/-- The outcome of the list model as one of the buffer model. -/
def Outcome.toB : Outcome α → OutcomeB α
  | .row r => .row r
  | .stop => .stop
  | .error e => .error (.perr e)

theorem nextRowFromB_ref (items : List Item) (b : BObj α) (hb : b.Inv M) :
    (nextRowFromB junk cfg mk b items).1 = (nextRowFrom cfg mk b.abs items).1.toB ∧
      (nextRowFromB junk cfg mk b items).2.1 = (nextRowFrom cfg mk b.abs items).2 ∧
      (nextRowFromB junk cfg mk b items).2.2.length ≤ M := by
  induction items generalizing b with
  | nil =>
    have hlen : b.abs.field ≠ [] ↔ b.len ≠ 0 := by
      have : b.abs.field.length = b.len := by have := hb.1; simp [BObj.abs]; omega
      rw [← this]; simp
    have hc : (b.abs.field ≠ [] ∨ b.abs.state = .inQuotedField) ↔
        (b.len ≠ 0 ∨ b.state = .inQuotedField) := by rw [hlen]; rfl
    rw [nextRowFromB, nextRowFrom]
    by_cases h : b.len ≠ 0 ∨ b.state = .inQuotedField
    · rw [if_pos h, if_pos (hc.2 h)]
      cases cfg.strict with
      | true => exact ⟨rfl, rfl, hb.2⟩
      | false =>
        obtain ⟨b', e1, e2, hi⟩ := saveFieldB_ref cfg mk M b hb true
        simp only [e1, ← e2]
        exact ⟨rfl, rfl, hi.2⟩
    · rw [if_neg h, if_neg (fun h' => h (hc.1 h'))]
      exact ⟨rfl, rfl, hb.2⟩
  | cons it rest ih =>
    cases it with
    | raise => exact ⟨rfl, rfl, hb.2⟩
    | nonstr => exact ⟨rfl, rfl, hb.2⟩
    | str l =>
      rw [nextRowFromB, nextRowFrom]
      have hl := feedLineB_ref junk cfg mk M hM hM' l b hb
      cases hf : feedLine cfg mk b.abs l with
      | error e => rw [hf] at hl; simp only [Ref] at hl; rw [hl]; exact ⟨rfl, rfl, hb.2⟩
      | ok o =>
        rw [hf] at hl
        obtain ⟨b', e1, e2, hi⟩ := hl
        subst e2
        rw [e1]
        simp only
        have hst : b'.abs.state = b'.state := rfl
        by_cases hs : b'.state = .startRecord
        · rw [if_pos hs, if_pos (by rw [hst]; exact hs)]; exact ⟨rfl, rfl, hi.2⟩
        · rw [if_neg hs, if_neg (by rw [hst]; exact hs)]; exact ih b' hi
end

end Clever
