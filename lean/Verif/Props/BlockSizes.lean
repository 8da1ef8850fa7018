import Verif.Proofs.BlockSizes

/-!
# C112: the sizes of blocks do not overflow
-/

namespace Clever.Props

open Clever Clever.Spec

variable {α : Type}

/-- **C112**, one step of the parser: characters in the field or pending are at most those read, and a buffer of `B`
characters is enough if `B` is at least 4096 and twice the number of characters read. -/
theorem C112_step (junk : Nat → Char) (cfg : Cfg) (mk : Str → Bool → α) (B n : Nat) (h4 : 4096 ≤ B) (hn : 2 * n ≤ B)
    (o o' : BObj α) (u v : Char) (hl : o.len + o.state.pending ≤ n) (hm : o.mem.length ≤ B)
    (h : processCharB junk cfg mk o u v = .ok o') :
    o'.len + o'.state.pending ≤ n + 1 ∧ o'.mem.length ≤ B :=
  processCharB_small junk cfg mk B h4 hn o ⟨hl, hm⟩ u v o' h

/-- **C112**, a call of the parser, whatever the field size limit: the buffer has at most 4096 characters, or twice as many
as were fed to the parser. -/
theorem C112_call (junk : Nat → Char) (cfg : Cfg) (mk : Str → Bool → α) (mem : List Char) (items : List Item) (B : Nat)
    (h4 : 4096 ≤ B) (hB : 2 * fed items ≤ B) (hm : mem.length ≤ B) :
    (nextRowB junk cfg mk mem items).2.2.length ≤ B :=
  nextRowFromB_small junk cfg mk B h4 items 0 _ (by omega) ⟨by simp [BObj.reset, PState.pending], hm⟩

theorem nextRowFromB_suffix (junk : Nat → Char) (cfg : Cfg) (mk : Str → Bool → α) (items : List Item) :
    ∀ o : BObj α, fed (nextRowFromB junk cfg mk o items).2.1 ≤ fed items := by
  induction items with
  | nil =>
    intro o
    simp only [nextRowFromB]
    split
    · split
      · exact Nat.le_refl _
      · split <;> exact Nat.le_refl _
    · exact Nat.le_refl _
  | cons it rest ih =>
    intro o
    cases it with
    | raise => simp [nextRowFromB, fed]
    | nonstr => simp [nextRowFromB, fed]
    | str l =>
      simp only [nextRowFromB, fed]
      split
      · simp only; omega
      · split
        · simp only; omega
        · exact Nat.le_trans (ih _) (by omega)

/-- The buffer after `k` calls. -/
def bufferAfter (junk : Nat → Char) (cfg : Cfg) (mk : Str → Bool → α) : Nat → List Char → List Item → List Char
  | 0, mem, _ => mem
  | k + 1, mem, items =>
    let r := nextRowB junk cfg mk mem items
    bufferAfter junk cfg mk k r.2.2 r.2.1

/-- **C112**, the life of a parser: after any number of calls the buffer has at most 4096 characters, or twice as many as
were fed to it; its size in bytes fits into `Py_ssize_t` if fewer than 2^60 characters and lines are fed. -/
theorem C112_parser (junk : Nat → Char) (cfg : Cfg) (mk : Str → Bool → α) (items : List Item) (k : Nat) :
    (bufferAfter junk cfg mk k [] items).length ≤ max 4096 (2 * fed items) ∧
      (fed items < 2 ^ 60 → 4 * (bufferAfter junk cfg mk k [] items).length < 2 ^ 63) := by
  have key : ∀ (k B : Nat) (mem : List Char) (items : List Item), 4096 ≤ B → 2 * fed items ≤ B → mem.length ≤ B →
      (bufferAfter junk cfg mk k mem items).length ≤ B := by
    intro k
    induction k with
    | zero => intro B mem items _ _ h; exact h
    | succ k ih =>
      intro B mem items h4 hB hm
      refine ih B _ _ h4 ?_ (C112_call junk cfg mk mem items B h4 hB hm)
      have := nextRowFromB_suffix junk cfg mk items (BObj.reset ⟨[], mem, 0, .startRecord⟩)
      simp only [nextRowB]
      omega
  have := key k (max 4096 (2 * fed items)) [] items (by omega) (by omega) (by simp)
  exact ⟨this, fun h => by omega⟩

/-- **C112**, `base_abstraction`: the stack has at most 4096 characters, or twice as many as the data. -/
theorem C112_base_abstraction (junk : Nat → Char) (d q e : Char) (data : Str) (b : AbsBuf)
    (h : absLoopB junk d q e ⟨List.replicate 4096 NUL, 0, false⟩ data = .ok b) :
    b.stack.length ≤ max 4096 (2 * data.length) ∧ (data.length < 2 ^ 62 → b.stack.length < 2 ^ 63) := by
  have := absLoopB_small junk d q e (max 4096 (2 * data.length)) data ⟨List.replicate 4096 NUL, 0, false⟩ b
    (by simp only [List.length_replicate]; omega) (by simp only [List.length_replicate]; omega) (by simp only; omega) h
  exact ⟨this, fun h => by omega⟩

/-- **C112**, `c_merge_with_quotechar`: the index arrays have at most four elements, or twice as many as the string has
characters. -/
theorem C112_merge (junk : Nat → Nat) (s : Str) (b : MergeBuf)
    (h : mergeLoopB junk s s.length 0
      ⟨(List.range 4).map junk, (List.range 4).map junk, 0, false, List.replicate s.length NUL⟩ = .ok b) :
    b.l.length ≤ max 4 (2 * s.length) ∧ b.r.length ≤ max 4 (2 * s.length) ∧ b.out.length = s.length ∧
      (s.length < 2 ^ 59 → 8 * b.l.length < 2 ^ 63 ∧ 8 * b.r.length < 2 ^ 63) := by
  have := mergeLoopB_small junk s (max 4 (2 * s.length)) (by omega) s.length 0 _ b (Nat.le_refl _)
    (by simp only [List.length_map, List.length_range]; omega) (by simp only [List.length_map, List.length_range]; omega) h
  simp only [List.length_replicate] at this
  exact ⟨this.1, this.2.1, this.2.2, fun h => by omega⟩

/-- A concrete case: a buffer that grows, and one call after it. -/
example : (bufferAfter (fun _ => '?') ⟨',', '"', NUL, 10, false⟩ mkPlain 2 [] [.str "abc,d".toList, .str "e".toList]).length =
    4096 := by decide +kernel

/-- Concrete cases: the stack stays as it is for a short text, the index arrays grow for five quoted blocks. -/
example : ∃ b, absLoopB (fun _ => '?') ',' '"' NUL ⟨List.replicate 4096 NUL, 0, false⟩ "a,b".toList = .ok b := by
  obtain ⟨b, h, -⟩ := absLoopB_ok (fun _ => '?') ',' '"' NUL "a,b".toList ⟨List.replicate 4096 NUL, 0, false⟩
    (by rw [List.length_replicate]; exact Nat.succ_pos 4095)
  exact ⟨b, h⟩
example : (mergeLoopB (fun n => n) "QQDQCQDQQDQQDQQQQ".toList 17 0
    ⟨(List.range 4).map id, (List.range 4).map id, 0, false, List.replicate 17 NUL⟩).map (fun b => b.l.length) = .ok 8 := by
  decide +kernel

end Clever.Props
