import Verif.Props.Standardize

/-!
# The output file is the input file (C64): the file is always emptied
-/

namespace Clever.Props

open Clever

theorem parseString_empty {limit : Int} {d : SimpleDialect} {rows : List (List Str)}
    (h : parseString limit d [] = (rows, none)) : rows = [] := by
  unfold parseString parseData at h
  split at h
  · simp at h
  · simp only [linesUniv, strItems, List.map_nil, parseRows_eq, nextRow_nil, Prod.mk.injEq] at h
    exact h.1.symm

/-- **C64 is violated by every run**: if the output file is the input file, a run that reports no failure leaves an empty
file, whatever was in it (for encodings in which the empty file is the empty text), and its exit code is 0. -/
theorem C64_always_violated (sys : Sys) (a : StdArgs) (hi : a.inPlace = false) (p : Path) (enc : Option Str) (w w' : World)
    (c : Nat) (hc : c ≠ 1) (hempty : ∀ e k, sys.codec e = some k → k.decode [] = some [])
    (h : handlePath sys a p (some p) enc w = (.ok c, w')) : c = 0 ∧ w'.files p = some [] := by
  obtain ⟨text, r, w1, -, -, -, -, -, h | ⟨d, -, h⟩⟩ := handlePath_inv h
  · exact absurd h.2.1 hc
  · unfold deliver at h
    rw [hi] at h
    simp only [Bool.false_eq_true, if_false] at h
    unfold toFile at h
    obtain ⟨cd, w2, h1, h⟩ := bind_inv h
    unfold openTextWrite at h1
    obtain ⟨_, w3, h2, h1⟩ := bind_inv h1
    have := openWrite_inv h2
    subst this
    obtain ⟨hcd, rfl⟩ := getCodec_inv h1
    obtain ⟨g, w4, h3, h⟩ := bind_inv h
    obtain ⟨rfl, text', ht, hg⟩ := writeToStream_inv h3
    have htext : text' = [] := by
      unfold World.text at ht
      simp only [World.set_self, Option.bind_some] at ht
      cases hk : sys.codec (w.stdEncoding sys p enc) with
      | none => rw [hk] at ht; simp at ht
      | some k =>
        rw [hk] at ht
        simp only [Option.bind_some, hempty _ k hk, Option.some.injEq] at ht
        exact ht.symm
    subst htext
    obtain ⟨_, w5, h4, h⟩ := bind_inv h
    obtain ⟨hn, s, b, hb, h4f, -, -⟩ := writeGen_inv (old := []) (by simp) h4
    obtain ⟨rows, hrows, hflat⟩ := hg hn
    have hr := parseString_empty hrows
    subst hr
    have he : excelText (shown a.transpose []) = [] := by
      cases a.transpose <;> decide
    rw [hflat, he] at hb
    simp only [Codec.encodeFrom, Option.some.injEq, Prod.mk.injEq] at hb
    obtain ⟨-, rfl⟩ := hb
    simp only [act_pure, Prod.mk.injEq, Except.ok.injEq] at h
    rw [← h.2]
    exact ⟨h.1.symm, by simpa using h4f⟩

example :
    (handlePath demoSys { paths := ["f".toList], outputs := ["f".toList], transpose := true } "f".toList (some "f".toList) none
      (demoWorld [("f", "1,5;2\n2,5;3\n")])).1 = .ok 0 := by decide +kernel

end Clever.Props
