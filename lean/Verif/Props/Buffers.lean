import Verif.Proofs.AbstractionBuffer

/-!
# C14: the buffers of the C extension are never indexed out of bounds

In the buffer models every access outside a block is the error `BErr.oob`; the theorems say that this
error does not occur, and that the results are those of the list models on which all other
properties are proved.
-/

namespace Clever.Props

open Clever

variable {α : Type}

/-- **C14**, the parser: one call of `Parser_iternext`, with any buffer left over from earlier calls
(of whatever size, also none), any uninitialised memory, any configuration and any input, makes no
access out of bounds. -/
theorem C14_parser_in_bounds (junk : Nat → Char) (cfg : Cfg) (mk : Str → Bool → α)
    (mem : List Char) (items : List Item) :
    (nextRowB junk cfg mk mem items).1 ≠ .error .oob := by
  have h := (nextRowFromB_ref junk cfg mk (max (max mem.length 4096) (2 * cfg.fieldLimit.toNat))
    (by omega) (by omega) items (BObj.reset ⟨[], mem, 0, .startRecord⟩)
    ⟨by simp [BObj.reset], by simp [BObj.reset]; omega⟩).1
  rw [nextRowB, h]
  generalize (nextRowFrom cfg mk (BObj.reset ⟨[], mem, 0, .startRecord⟩).abs items).1 = o
  cases o <;> simp [Outcome.toB]

/-- **C14**, the parser: it returns what the model on lists returns, whatever the buffer it starts
with and whatever the uninitialised memory holds, and leaves the same input. -/
theorem C14_parser_refines (junk : Nat → Char) (cfg : Cfg) (mk : Str → Bool → α)
    (mem : List Char) (items : List Item) :
    (nextRowB junk cfg mk mem items).1 =
        (match (nextRow cfg mk items).1 with
          | .row r => .row r
          | .stop => .stop
          | .error e => .error (.perr e)) ∧
      (nextRowB junk cfg mk mem items).2.1 = (nextRow cfg mk items).2 := by
  have h := nextRowFromB_ref junk cfg mk (max (max mem.length 4096) (2 * cfg.fieldLimit.toNat))
    (by omega) (by omega) items (BObj.reset ⟨[], mem, 0, .startRecord⟩)
    ⟨by simp [BObj.reset], by simp [BObj.reset]; omega⟩
  have habs : (BObj.reset ⟨[], mem, 0, .startRecord⟩ : BObj α).abs = PObj.init := by
    simp [BObj.reset, BObj.abs, PObj.init]
  rw [habs] at h
  refine ⟨?_, h.2.1⟩
  rw [nextRowB, h.1, nextRow]
  generalize (nextRowFrom cfg mk PObj.init items).1 = o
  cases o <;> rfl

/-- **C14**, the size of the field buffer: it never grows beyond 4096 characters or twice the field
size limit. -/
theorem C14_parser_buffer_bound (junk : Nat → Char) (cfg : Cfg) (mk : Str → Bool → α)
    (mem : List Char) (items : List Item) (B : Nat) (hB : 4096 ≤ B)
    (hB' : 2 * cfg.fieldLimit.toNat ≤ B) (hmem : mem.length ≤ B) :
    (nextRowB junk cfg mk mem items).2.2.length ≤ B :=
  (nextRowFromB_ref junk cfg mk B hB hB' items (BObj.reset ⟨[], mem, 0, .startRecord⟩)
    ⟨by simp [BObj.reset], by simpa [BObj.reset] using hmem⟩).2.2

/-- A case of the theorems above: a buffer of one character has to grow twice for a cell of three
characters. -/
example : nextRowB (fun _ => '?') ⟨',', '"', NUL, 100, false⟩ mkPlain ['x'] [.str "abc,d".toList] =
    (.row ["abc".toList, "d".toList], [], "dbc?".toList) := by decide

/-- The buffer model does notice accesses out of bounds. -/
example : memWrite ['a'] 1 'b' = .error .oob ∧ memRead ['a'] 1 = .error .oob ∧
    memPrefix ['a'] 2 = .error .oob := by decide

/-- **C14**, `base_abstraction`: no access out of bounds, and the result is that of the list model. -/
theorem C14_base_abstraction_in_bounds (junk : Nat → Char) (d q e : Char) (data : Str) :
    baseAbstractionB junk d q e data = .ok (baseAbstraction d q e data) :=
  baseAbstractionB_eq junk d q e data

/-- **C14**, `c_merge_with_quotechar`: no access out of bounds, also with more quoted blocks than the
index arrays have room for at first, and no use of uninitialised memory: the result is that of the
list model whatever that memory holds. -/
theorem C14_merge_in_bounds (junk : Nat → Nat) (s : Str) :
    mergeWithQuotecharB junk s = .ok (mergeWithQuotechar s) :=
  mergeWithQuotecharB_eq junk s

/-- A case of `C14_merge_in_bounds`: five quoted blocks, the index arrays start with room for four. -/
example : mergeWithQuotecharB (fun n => 100 + n) "QQDQCQDQQDQQDQQQQ".toList =
    .ok "CCDCCCDCCDCCDCCCC".toList := by decide

end Clever.Props
