import Verif.Proofs.Scans
import Verif.Proofs.World

/-!
# C58: chunked file scans
-/

namespace Clever.Spec

/-- The chunks that a detector of encodings should be given for the contents `b`: full blocks, in order, until
the end of the file (which shows in a short block) or until the detector is done. -/
structure Chunked (det : EncDetector) (blk : Nat) (b : Bytes) (chunks : List Bytes) : Prop where
  inOrder : chunks.flatten <+: b
  full : ∀ c ∈ chunks.dropLast, c.length = blk
  last : ∀ l, chunks.getLast? = some l → l.length = blk ∨ l.length < blk ∧ chunks.flatten = b
  notDone : ∀ k < chunks.length, det.done ((chunks.take k).foldl det.feed det.init) = false
  complete : det.done (chunks.foldl det.feed det.init) = true ∨
    (chunks.flatten = b ∧ ∃ l, chunks.getLast? = some l ∧ l.length < blk)

end Clever.Spec

namespace Clever.Props

/-! ## C58 Chunked file scans see the whole file -/

/-- **C58 (sha1sum, any block size).**  The loop ends after at most one iteration per byte and one more, and the
hasher has then been given exactly the bytes of the file. -/
theorem C58_sha1_loop (blk : Nat) (hb : 0 < blk) (b : Bytes) (fuel : Nat) (hf : b.length < fuel) :
    sha1Loop blk fuel (b.take blk) (b.drop blk) [] = b := by
  rw [sha1Loop_eq hb fuel b [] hf, List.nil_append]

/-- **C58 (sha1sum).**  `sha1sum` returns the hash of the contents of the file, and changes nothing. -/
theorem C58_sha1 (sys : Sys) (hq : Quiet sys) (w : World) (p : Path) (b : Bytes) (h : w.files p = some b) :
    ∃ w', (sha1sum sys p) w = (.ok (sys.sha1 b), w') ∧ w'.files = w.files ∧ w'.limit = w.limit := by
  refine ⟨w.next, ?_, rfl, rfl⟩
  unfold sha1sum
  rw [act_bind_ok (openRead_quiet hq h)]
  unfold sha1Input
  rw [C58_sha1_loop 65536 (by decide) b _ (by omega)]
  rfl

/-- **C58 (get_encoding, any block size).**  The loop ends, and the detector has been fed the blocks of the file in
order, until a short one or until it was done, and nothing else. -/
theorem C58_encoding_loop (det : EncDetector) (blk : Nat) (hb : 0 < blk) (b : Bytes) (fuel : Nat)
    (hf : b.length + 2 ≤ fuel) :
    ∃ chunks, Spec.Chunked det blk b chunks ∧
      sniffLoop det blk fuel false b det.init = (chunks.foldl det.feed det.init, chunks) := by
  obtain ⟨cs, h1, h2, h3, h4, h5, h6⟩ := sniffLoop_spec det hb fuel b det.init (by omega)
  exact ⟨cs, ⟨h2, h5, h6, h4, h3.symm⟩, h1⟩

/-- **C58 (get_encoding).**  `get_encoding` returns what the detector says about these blocks, and changes
nothing. -/
theorem C58_encoding (sys : Sys) (hq : Quiet sys) (w : World) (p : Path) (b : Bytes) (h : w.files p = some b) :
    ∃ chunks w', Spec.Chunked sys.sniffer 65536 b chunks ∧
      (getEncoding sys p) w =
        (.ok (sys.sniffer.result (chunks.foldl sys.sniffer.feed sys.sniffer.init)), w') ∧
      w'.files = w.files ∧ w'.limit = w.limit := by
  obtain ⟨cs, h1, h2⟩ := C58_encoding_loop sys.sniffer 65536 (by decide) b (b.length + 2) (le_refl _)
  refine ⟨cs, w.next, h1, ?_, rfl, rfl⟩
  unfold getEncoding
  rw [act_bind_ok (openRead_quiet hq h)]
  unfold sniffRun
  rw [h2]
  rfl

/-- The blocks are determined by the specification. -/
theorem C58_chunks_unique (det : EncDetector) (blk : Nat) (b : Bytes) (cs ds : List Bytes)
    (hc : Spec.Chunked det blk b cs) (hd : Spec.Chunked det blk b ds) : cs = ds :=
  blocks_unique det cs ds b det.init hc.inOrder hd.inOrder hc.full hd.full hc.last hd.last hc.notDone hd.notDone
    hc.complete hd.complete

/-- Concrete cases: seven bytes in blocks of three; six bytes, a multiple of the block size, are followed by an
empty block; a detector that is done after two blocks is given no third. -/
example : sha1Loop 3 8 [1, 2, 3] [4, 5, 6, 7] [] = [1, 2, 3, 4, 5, 6, 7] := by decide

example : (sniffLoop ⟨Nat, 0, fun n b => n + b.length, fun _ => false, fun _ => none⟩ 3 8 false
    [1, 2, 3, 4, 5, 6] (0 : Nat)).2 = [[1, 2, 3], [4, 5, 6], []] := by decide

example : (sniffLoop ⟨Nat, 0, fun n b => n + b.length, fun n => decide (n > 5), fun _ => none⟩ 3 12 false
    [1, 2, 3, 4, 5, 6, 7, 8, 9, 10] (0 : Nat)).2 = [[1, 2, 3], [4, 5, 6]] := by decide

end Clever.Props
