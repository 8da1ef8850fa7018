import Verif.Model.AbstractionBuffer
import Verif.Proofs.ParserBuffer
import Verif.Proofs.AbstractionBuffer
import Verif.Spec.BlockSizes

/-!
# Sizes of the blocks that the C code allocates
-/

namespace Clever

variable {α : Type}

/-- One character, the escape character, is read but not yet in the field. -/
def PState.pending : PState → Nat
  | .escapedChar | .escapeInQuotedField => 1
  | _ => 0

/-- At most `n` characters are in the field or pending; the buffer has at most `B` characters. -/
def BObj.Small (B n : Nat) (o : BObj α) : Prop := o.len + o.state.pending ≤ n ∧ o.mem.length ≤ B

/-- What holds of the object if there is no error. -/
def Post (P : BObj α → Prop) (r : Except BErr (BObj α)) : Prop := ∀ o, r = .ok o → P o

theorem Post.bind {P Q : BObj α → Prop} {r : Except BErr (BObj α)} {f : BObj α → Except BErr (BObj α)} (h : Post P r)
    (hf : ∀ o, P o → Post Q (f o)) : Post Q (r >>= f) := by
  cases r with
  | error e => intro o ho; cases ho
  | ok o => exact hf o (h o rfl)

theorem Post.ite {P : BObj α → Prop} {c : Prop} [Decidable c] {r r' : Except BErr (BObj α)} (h1 : c → Post P r)
    (h2 : ¬ c → Post P r') : Post P (if c then r else r') := by
  by_cases h : c
  · simpa only [h, if_true] using h1 h
  · simpa only [h, if_false] using h2 h

theorem Post.ok {P : BObj α → Prop} {o : BObj α} (h : P o) : Post P (.ok o) := by
  intro o' ho; cases ho; exact h

theorem Post.error {P : BObj α → Prop} {e : BErr} : Post P (.error e) := by
  intro o' ho; cases ho

theorem addCharB_post (junk : Nat → Char) (cfg : Cfg) (B : Nat) (h4 : 4096 ≤ B) (o : BObj α) (hm : o.mem.length ≤ B)
    (hl : 2 * o.len ≤ B) (c : Char) :
    Post (fun o' => o'.len = o.len + 1 ∧ o'.state = o.state ∧ o'.mem.length ≤ B) (addCharB junk cfg o c) := by
  unfold addCharB
  refine Post.ite (fun _ => Post.error) (fun _ => ?_)
  have hg : (if o.len = o.mem.length then growBuff junk o else o).mem.length ≤ B := by
    split
    · rename_i h
      simp only [growBuff, length_memGrow]
      split <;> omega
    · exact hm
  have h1 : (if o.len = o.mem.length then growBuff junk o else o).len = o.len := by split <;> rfl
  have h2 : (if o.len = o.mem.length then growBuff junk o else o).state = o.state := by split <;> rfl
  generalize (if o.len = o.mem.length then growBuff junk o else o) = o1 at *
  simp only [memWrite]
  split
  · rename_i h; split at h <;> cases h; exact Post.error
  · rename_i mem h
    split at h <;> cases h
    exact Post.ok ⟨by simp [h1], h2, by simpa using hg⟩

theorem saveFieldB_post (cfg : Cfg) (mk : Str → Bool → α) (o : BObj α) (tr : Bool) :
    Post (fun o' => o'.len = 0 ∧ o'.state = o.state ∧ o'.mem = o.mem) (saveFieldB cfg mk o tr) := by
  unfold saveFieldB
  split
  · exact Post.error
  · exact Post.ok ⟨rfl, rfl, rfl⟩

section

variable (junk : Nat → Char) (cfg : Cfg) (mk : Str → Bool → α) (B : Nat) (h4 : 4096 ≤ B)
include h4

theorem add_to_small {n : Nat} (hn : 2 * n ≤ B) (o : BObj α) (hm : o.mem.length ≤ B) (hl : o.len ≤ n) (c : Char)
    (s : PState) (hs : s.pending = 0) :
    Post (BObj.Small B (n + 1)) (addCharB junk cfg o c >>= fun o => .ok (o.to s)) :=
  Post.bind (addCharB_post junk cfg B h4 o hm (by omega) c)
    (fun o' h => Post.ok ⟨by simp only [BObj.to, hs]; omega, h.2.2⟩)

theorem add_small {n : Nat} (hn : 2 * n ≤ B) (o : BObj α) (hm : o.mem.length ≤ B) (hl : o.len ≤ n) (c : Char)
    (hs : o.state.pending = 0) : Post (BObj.Small B (n + 1)) (addCharB junk cfg o c) := by
  intro o' ho
  obtain ⟨h1, h2, h3⟩ := addCharB_post junk cfg B h4 o hm (by omega) c o' ho
  exact ⟨by rw [h2, hs]; omega, h3⟩

omit h4 in
theorem save_to_small {n : Nat} (o : BObj α) (hm : o.mem.length ≤ B) (s : PState) (hs : s.pending = 0) :
    Post (BObj.Small B n) (saveFieldB cfg mk o false >>= fun o => .ok (o.to s)) :=
  Post.bind (saveFieldB_post cfg mk o false)
    (fun o' h => Post.ok ⟨by simp only [BObj.to, hs]; omega, by simpa only [BObj.to, h.2.2] using hm⟩)

omit h4 in
theorem save_small {n : Nat} (o : BObj α) (hm : o.mem.length ≤ B) (hs : o.state.pending = 0) :
    Post (BObj.Small B n) (saveFieldB cfg mk o false) := by
  intro o' ho
  obtain ⟨h1, h2, h3⟩ := saveFieldB_post cfg mk o false o' ho
  exact ⟨by rw [h2, hs]; omega, by rw [h3]; exact hm⟩

theorem stepStartFieldB_small {n : Nat} (hn : 2 * n ≤ B) (o : BObj α) (hm : o.mem.length ≤ B) (hl : o.len ≤ n)
    (hs : o.state.pending = 0) (u : Char) : Post (BObj.Small B (n + 1)) (stepStartFieldB junk cfg mk o u) := by
  unfold stepStartFieldB
  refine Post.ite (fun _ => save_to_small cfg mk B o hm _ (by split <;> rfl)) (fun _ => ?_)
  refine Post.ite (fun _ => add_to_small junk cfg B h4 hn o hm hl u _ rfl) (fun _ => ?_)
  refine Post.ite (fun _ => Post.ok ⟨by simp only [BObj.to, PState.pending]; omega, hm⟩) (fun _ => ?_)
  refine Post.ite (fun _ => save_small cfg mk B o hm hs) (fun _ => ?_)
  exact add_to_small junk cfg B h4 hn o hm hl u _ rfl

theorem stepInFieldB_small {n : Nat} (hn : 2 * n ≤ B) (o : BObj α) (hm : o.mem.length ≤ B) (hl : o.len ≤ n)
    (hs : o.state.pending = 0) (u : Char) : Post (BObj.Small B (n + 1)) (stepInFieldB junk cfg mk o u) := by
  unfold stepInFieldB
  refine Post.ite (fun _ => save_to_small cfg mk B o hm _ (by split <;> rfl)) (fun _ => ?_)
  refine Post.ite (fun _ => Post.ok ⟨by simp only [BObj.to, PState.pending]; omega, hm⟩) (fun _ => ?_)
  refine Post.ite (fun _ => add_to_small junk cfg B h4 hn o hm hl u _ rfl) (fun _ => ?_)
  refine Post.ite (fun _ => save_to_small cfg mk B o hm _ rfl) (fun _ => ?_)
  exact add_small junk cfg B h4 hn o hm hl u hs

theorem processCharB_small {n : Nat} (hn : 2 * n ≤ B) (o : BObj α) (ho : o.Small B n) (u v : Char) :
    Post (BObj.Small B (n + 1)) (processCharB junk cfg mk o u v) := by
  obtain ⟨hl, hm⟩ := ho
  unfold processCharB
  have hz : ∀ (c : Char) (o : BObj α), o.mem.length ≤ B → o.len + 1 ≤ n →
      Post (fun o' => o'.len ≤ n ∧ o'.mem.length ≤ B) (addCharB junk cfg o c) := by
    intro c o hm hl o' ho'
    obtain ⟨h1, h2, h3⟩ := addCharB_post junk cfg B h4 o hm (by omega) c o' ho'
    exact ⟨by omega, h3⟩
  obtain ⟨fs, mem, len, st⟩ := o
  cases st <;> simp only [PState.pending] at hl <;> simp only
  case startRecord =>
    refine Post.ite (fun _ => Post.ok ⟨by simp only [PState.pending]; omega, hm⟩) (fun _ => ?_)
    refine Post.ite (fun _ => Post.ok ⟨by simp only [BObj.to, PState.pending]; omega, hm⟩) (fun _ => ?_)
    exact stepStartFieldB_small junk cfg mk B h4 hn (BObj.to ⟨fs, mem, len, .startRecord⟩ .startField) hm (by simp only [BObj.to]; omega) rfl u
  case startField => exact stepStartFieldB_small junk cfg mk B h4 hn _ hm (by omega) rfl u
  case escapedChar =>
    refine Post.ite (fun _ => add_to_small junk cfg B h4 hn _ hm (by simp only; omega) u _ rfl) (fun _ => ?_)
    have h2 : ∀ o' : BObj α, o'.len ≤ n ∧ o'.mem.length ≤ B → Post (BObj.Small B (n + 1))
        (if u = NUL then (.ok o' : Except BErr (BObj α)) >>= fun o => .ok (o.to .inField)
          else addCharB junk cfg o' u >>= fun o => .ok (o.to .inField)) := by
      intro o' h'
      refine Post.ite (fun _ => Post.ok ⟨by simp only [BObj.to, PState.pending]; omega, h'.2⟩) (fun _ => ?_)
      exact add_to_small junk cfg B h4 hn _ h'.2 h'.1 _ _ rfl
    exact Post.ite (fun _ => Post.bind (hz _ _ hm hl) h2) (fun _ => h2 _ ⟨by simp only; omega, hm⟩)
  case inField => exact stepInFieldB_small junk cfg mk B h4 hn _ hm (by omega) rfl u
  case afterEscapedCRNL =>
    refine Post.ite (fun _ => Post.ok ⟨by simp only [PState.pending]; omega, hm⟩) (fun _ => ?_)
    exact stepInFieldB_small junk cfg mk B h4 hn _ hm (by omega) rfl u
  case inQuotedField =>
    refine Post.ite (fun _ => Post.ok ⟨by simp only [PState.pending]; omega, hm⟩) (fun _ => ?_)
    refine Post.ite (fun _ => Post.ok ⟨by simp only [BObj.to, PState.pending]; omega, hm⟩) (fun _ => ?_)
    refine Post.ite (fun _ => ?_) (fun _ => add_small junk cfg B h4 hn _ hm (by omega) u rfl)
    refine Post.ite (fun _ => Post.ok ⟨by simp only [BObj.to, PState.pending]; omega, hm⟩) (fun _ => ?_)
    refine Post.ite (fun _ => Post.error) (fun _ => ?_)
    exact add_to_small junk cfg B h4 hn _ hm (by simp only; omega) u _ rfl
  case escapeInQuotedField =>
    refine Post.ite (fun _ => Post.bind (hz _ _ hm hl) (fun o' h' => ?_)) (fun _ => ?_)
    · exact add_to_small junk cfg B h4 hn _ h'.2 h'.1 _ _ rfl
    · exact add_to_small junk cfg B h4 hn _ hm (by simp only; omega) _ _ rfl
  case quoteInQuotedField =>
    refine Post.ite (fun _ => add_to_small junk cfg B h4 hn _ hm (by simp only; omega) u _ rfl) (fun _ => ?_)
    refine Post.ite (fun _ => save_to_small cfg mk B _ hm _ rfl) (fun _ => ?_)
    refine Post.ite (fun _ => save_to_small cfg mk B _ hm _ (by split <;> rfl)) (fun _ => ?_)
    exact Post.ite (fun _ => add_to_small junk cfg B h4 hn _ hm (by simp only; omega) u _ rfl) (fun _ => Post.error)
  case eatCRNL =>
    refine Post.ite (fun _ => Post.ok ⟨by simp only [PState.pending]; omega, hm⟩) (fun _ => ?_)
    exact Post.ite (fun _ => Post.ok ⟨by simp only [BObj.to, PState.pending]; omega, hm⟩) (fun _ => Post.error)

theorem feedLoopB_small (line : Str) (k : Nat) : ∀ (n pos : Nat) (v : Char) (o : BObj α), 2 * (n + k) ≤ B → o.Small B n →
    Post (BObj.Small B (n + k)) (feedLoopB junk cfg mk line k pos v o) := by
  induction k with
  | zero => intro n pos v o hn ho; exact Post.ok ho
  | succ k ih =>
    intro n pos v o hn ho
    simp only [feedLoopB]
    cases readU line pos v with
    | error e => exact Post.error
    | ok u =>
      cases readV line pos k with
      | error e => exact Post.error
      | ok v' =>
        refine Post.ite (fun _ => Post.error) (fun _ => ?_)
        refine Post.bind (processCharB_small junk cfg mk B h4 (n := n) (by omega) o ho u v') (fun o' ho' => ?_)
        have := ih (n + 1) (pos + 1) v' o' (by omega) ho'
        rwa [show n + 1 + k = n + (k + 1) by omega] at this

theorem feedLineB_small (line : Str) (n : Nat) (o : BObj α) (hn : 2 * (n + line.length) ≤ B) (ho : o.Small B n) :
    Post (BObj.Small B (n + line.length + 1)) (feedLineB junk cfg mk o line) :=
  Post.bind (feedLoopB_small junk cfg mk B h4 line line.length n 0 NUL o hn ho)
    (fun o' ho' => processCharB_small junk cfg mk B h4 (by omega) o' ho' NUL NUL)

theorem nextRowFromB_small (items : List Item) : ∀ (n : Nat) (o : BObj α), 2 * (n + Spec.fed items) ≤ B → o.Small B n →
    (nextRowFromB junk cfg mk o items).2.2.length ≤ B := by
  induction items with
  | nil =>
    intro n o hn ho
    simp only [nextRowFromB]
    split
    · split
      · exact ho.2
      · rcases hs : saveFieldB cfg mk o true with e | o'
        · exact ho.2
        · simp only [(saveFieldB_post cfg mk o true o' hs).2.2]; exact ho.2
    · exact ho.2
  | cons it rest ih =>
    intro n o hn ho
    cases it with
    | raise => exact ho.2
    | nonstr => exact ho.2
    | str l =>
      simp only [Spec.fed] at hn
      simp only [nextRowFromB]
      rcases hf : feedLineB junk cfg mk o l with e | o'
      · exact ho.2
      · have := feedLineB_small junk cfg mk B h4 l n o (by omega) ho o' hf
        simp only
        split
        · exact this.2
        · exact ih (n + l.length + 1) o' (by omega) this

end

/-! ## `base_abstraction` -/

theorem absLoopB_small (junk : Nat → Char) (d q e : Char) (B : Nat) (data : Str) : ∀ (b b' : AbsBuf),
    b.len < b.stack.length → b.stack.length ≤ B → 2 * (b.len + data.length) ≤ B →
    absLoopB junk d q e b data = .ok b' → b'.stack.length ≤ B := by
  induction data with
  | nil => intro b b' _ hs _ h; cases h; exact hs
  | cons c rest ih =>
    intro b b' hb hs hl h
    obtain ⟨b1, e1, _, e3, e4⟩ := absStepB_ok d q e b hb c
    rw [absLoopB, e1] at h
    simp only [List.length_cons] at hl
    have hg := growStack_ok junk b1 (by omega) (by omega)
    refine ih _ b' hg.2.1 ?_ ?_ h
    · unfold growStack
      split
      · simp only [length_memGrow]; omega
      · omega
    · have : (growStack junk b1).len = b1.len := by unfold growStack; split <;> rfl
      omega

/-! ## `c_merge_with_quotechar` -/

theorem length_memWrite {β : Type} {m m' : List β} {k : Nat} {c : β} (hm : memWrite m k c = .ok m') :
    m'.length = m.length := by
  unfold memWrite at hm
  split at hm <;> cases hm
  simp

theorem closeBlock_small (junk : Nat → Nat) (B : Nat) (b b' : MergeBuf) (i : Nat) (hi : 2 * (b.idx + 1) ≤ B)
    (h1 : b.l.length ≤ B) (h2 : b.r.length ≤ B) (h : closeBlock junk b i = .ok b') :
    b'.idx = b.idx + 1 ∧ b'.l.length ≤ B ∧ b'.r.length ≤ B ∧ b'.out = b.out := by
  unfold closeBlock at h
  rcases hc : memWrite b.r b.idx i with e | r <;> rw [hc] at h
  · cases h
  have hrl := length_memWrite hc
  simp only at h
  split at h <;> cases h
  · refine ⟨rfl, ?_, ?_, rfl⟩ <;> simp only [length_memGrow] <;> omega
  · exact ⟨rfl, h1, by simp only; omega, rfl⟩

theorem mergeLoopB_small (junk : Nat → Nat) (s : Str) (B : Nat) (hB : 2 * s.length ≤ B) (n : Nat) :
    ∀ (i : Nat) (b b' : MergeBuf), b.idx ≤ i → b.l.length ≤ B → b.r.length ≤ B → mergeLoopB junk s n i b = .ok b' →
      b'.l.length ≤ B ∧ b'.r.length ≤ B ∧ b'.out.length = b.out.length := by
  induction n with
  | zero => intro i b b' _ h1 h2 h; cases h; exact ⟨h1, h2, rfl⟩
  | succ n ih =>
    intro i b b' hi h1 h2 h
    rw [mergeLoopB] at h
    by_cases hlt : i < s.length
    · rw [if_pos hlt] at h
      rcases hr : memRead s i with e | c <;> rw [hr] at h
      · cases h
      simp only at h
      rcases ho : memWrite b.out i c with e | out <;> rw [ho] at h
      · cases h
      simp only at h
      have hol := length_memWrite ho
      split at h
      · have := ih (i + 1) ⟨b.l, b.r, b.idx, b.inQuotes, out⟩ b' (Nat.le_succ_of_le hi) h1 h2 h
        simpa only [hol] using this
      · split at h
        · rcases hl : memWrite b.l b.idx i with e | l <;> rw [hl] at h
          · cases h
          have := ih (i + 1) ⟨l, b.r, b.idx, true, out⟩ b' (Nat.le_succ_of_le hi)
            (by simpa only [length_memWrite hl] using h1) h2 h
          simpa only [hol] using this
        · split at h
          · cases h
          · split at h
            · have := ih (i + 2) ⟨b.l, b.r, b.idx, b.inQuotes, out⟩ b' (Nat.le_add_right_of_le hi) h1 h2 h
              simpa only [hol] using this
            · split at h
              · cases h
              · rename_i b1 hc
                obtain ⟨c1, c2, c3, c4⟩ := closeBlock_small junk B ⟨b.l, b.r, b.idx, b.inQuotes, out⟩ b1 i
                  (by simp only; omega) h1 h2 hc
                have := ih (i + 1) b1 b' (by simp only at c1; omega) c2 c3 h
                rw [c4] at this
                simpa only [hol] using this
    · rw [if_neg hlt] at h
      cases h
      exact ⟨h1, h2, rfl⟩

end Clever
