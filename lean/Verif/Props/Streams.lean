import Verif.Proofs.Streams

/-!
# C123: files are read in chunks
-/

namespace Clever.Props

open Clever Spec

/-- C123, whole files: `read()` gives the text however it is divided into chunks, or an error. -/
theorem C123_all {f : TextIn} (hf : Fresh f) :
    (∀ t, Readable f t → f.readAll = .ok t) ∧
    (∀ t e, Breaks f t e → f.readAll = .error (if f.fails then .osError else .unicodeError)) := by
  obtain ⟨h1, h2, h3, h4⟩ := hf
  constructor
  · rintro t ⟨g1, s, g2, g3⟩
    simp [TextIn.readAll, g1, h1, h2, h3, Decoder.decode, g2, g3, crDecode_final, crText]
  · rintro t e ⟨good, s, g, ⟨c, bad, g1, g2, rfl⟩ | ⟨g1, g2, rfl⟩ | ⟨g1, g2, g3, rfl⟩⟩
    · cases hx : f.fails with
      | true => simp [TextIn.readAll, hx]
      | false =>
        have : f.dec.feed 0 f.chunks.flatten = none := by
          rw [g1, List.flatten_append, Decoder.feed_append, g, Option.bind_some, List.flatten_cons, Decoder.feed_append, g2]
          rfl
        simp [TextIn.readAll, hx, h1, Decoder.decode, this]
    · simp [TextIn.readAll, g2]
    · simp [TextIn.readAll, g2, h1, Decoder.decode, g1, g, g3]

/-- C123, prefixes: `read(n)` gives the first `n` characters of the text however it is divided into chunks.  If there is an
error, it does so if the chunks before give these characters (where CR at the end does not count). -/
theorem C123_prefix {f : TextIn} (hf : Fresh f) (n : Nat) :
    (∀ t, Readable f t → f.readN n = .ok (t.take n)) ∧
    (∀ t e, Breaks f t e → f.readN n = if n ≤ (settled t).length then .ok (t.take n) else .error e) := by
  constructor
  · intro t h
    obtain ⟨h1, h2⟩ := readable_spec hf h
    rw [readN_spec hf, h2, h1]
  · intro t e h
    obtain ⟨h1, h2⟩ := breaks_spec hf h
    rw [readN_spec hf, h2, h1]

/-- C123, lines: iterating over the file gives the lines of the text however it is divided into chunks.  If there is an error,
it comes after all lines that have ended in the chunks before. -/
theorem C123_lines {f : TextIn} (hf : Fresh f) :
    (∀ t, Readable f t → f.lines = (linesUniv t, none)) ∧
    (∀ t e, Breaks f t e → f.lines = (endedLines t, some e)) := by
  constructor
  · intro t h
    obtain ⟨h1, h2⟩ := readable_spec hf h
    rw [lines_spec (inv_fresh hf), h2, h1]
  · intro t e h
    obtain ⟨h1, h2⟩ := breaks_spec hf h
    rw [lines_spec (inv_fresh hf), h2, h1]

/-- C123: there are no other cases, and both do not occur together. -/
theorem C123_cases (f : TextIn) :
    ((∃ t, Readable f t) ∨ ∃ t e, Breaks f t e) ∧ ∀ t t' e, Readable f t → ¬ Breaks f t' e := by
  refine ⟨readable_or_breaks f, ?_⟩
  rintro t t' e ⟨h1, s, h2, h3⟩ ⟨good, s', g, ⟨c, bad, g1, g2, rfl⟩ | ⟨g1, g2, rfl⟩ | ⟨g1, g2, g3, rfl⟩⟩
  · rw [g1, List.flatten_append, Decoder.feed_append, g, Option.bind_some, List.flatten_cons, Decoder.feed_append, g2] at h2
    cases h2
  · rw [h1] at g2; cases g2
  · rw [g1, g] at h2
    cases h2
    rw [h3] at g3; cases g3

/-- C123: the lines that have ended are those that every continuation of the text has, and no others. -/
theorem C123_ended (t : Str) :
    (∀ u, endedLines t <+: linesUniv (t ++ u)) ∧
    ∀ L, (∀ u, L <+: linesUniv (t ++ u)) → L <+: endedLines t := by
  obtain ⟨left, h1, -, h3⟩ := ended_split t.length t (Nat.le_refl _)
  refine ⟨fun u => by rw [h3]; exact List.prefix_append _ _, fun L hL => ?_⟩
  by_cases hlen : L.length ≤ (endedLines t).length
  · have := hL []
    rw [h3] at this
    exact List.prefix_of_prefix_length_le this (List.prefix_append _ _) hlen
  · exfalso
    have key : ∀ u, ∃ M, linesUniv (left ++ u) = M ∧ (L.drop (endedLines t).length) <+: M := by
      intro u
      refine ⟨_, rfl, ?_⟩
      obtain ⟨ys, hy⟩ := hL u
      refine ⟨ys, ?_⟩
      rw [← List.drop_append_of_le_length (by omega), hy, h3, List.drop_left]
    have hd : L.drop (endedLines t).length ≠ [] := by
      intro h
      have := congrArg List.length h
      simp at this
      omega
    obtain ⟨x, xs, hx⟩ := List.exists_cons_of_ne_nil hd
    obtain ⟨_, rfl, k1⟩ := key []
    obtain ⟨_, rfl, k2⟩ := key ['\n']
    rw [hx] at k1 k2
    rw [linesUniv_first (firstEnd_newline h1)] at k2
    have e2 : x = (left ++ ['\n']).take (left.length + 1) := (List.cons_prefix_cons.mp k2).1
    have hflat : ∀ s : Str, (linesUniv s).flatten = s := by
      intro s
      induction s with
      | nil => rfl
      | cons c r ih =>
        rw [linesUniv]
        split
        · simp [ih]
        · split
          · rename_i h; rw [h] at ih; simp at ih; simp [← ih]
          · rename_i l ls h; rw [h] at ih; simp at ih; simp [ih]
    obtain ⟨ys, hy⟩ := k1
    have := congrArg (fun l => (List.flatten l).length) hy
    simp only [List.append_nil, hflat] at this
    have e3 : x.length = left.length + 1 := by rw [e2]; simp
    simp at this
    omega

/-- ASCII. -/
def asciiDecoder : Decoder where
  step s b := if b < 128 then some (s, [Char.ofNat b.toNat]) else none
  atEnd _ := true

/-- Two bytes for a character, the higher one first. -/
def pairDecoder : Decoder where
  step s b := if s = 0 then some (b.toNat + 1, []) else some (0, [Char.ofNat ((s - 1) * 256 + b.toNat)])
  atEnd s := s = 0

/-- CRLF is divided between two chunks. -/
example :
    let f : TextIn := { dec := asciiDecoder, chunks := [[97, 13], [10, 98], [13]], fails := false }
    f.lines = (["a\r\n".toList, "b\r".toList], none) ∧ f.readN 2 = .ok "a\r".toList := by decide

/-- A byte that cannot be decoded in the third chunk. -/
example :
    let f : TextIn := { dec := asciiDecoder, chunks := [[97, 13], [13, 98, 10, 99], [100, 200]], fails := false }
    f.lines = (["a\r".toList, "\r".toList, "b\n".toList], some .unicodeError) ∧ f.readN 6 = .ok "a\r\rb\nc".toList ∧
    f.readN 7 = .error .unicodeError := by decide

/-- A character is divided between two chunks; the end comes in the middle of a character. -/
example :
    let f : TextIn := { dec := pairDecoder, chunks := [[0, 97, 0], [10, 1, 5, 1]], fails := false }
    f.lines = (["a\n".toList], some .unicodeError) ∧ f.readN 3 = .ok "a\ną".toList ∧
    f.readAll = .error .unicodeError := by decide +kernel

end Clever.Props
