import Verif.Proofs.RoundTrip
import Verif.Proofs.Reader

/-!
# From the writer and the reader objects to the round trip of texts
-/

set_option linter.unusedSimpArgs false

namespace Clever.Props

open Clever

/-! ### Helpers: the dialects and the absence of writer errors -/

/-- The writer of a `SimpleDialect` with a delimiter. -/
def simpleWriter (d : Char) (q e : Option Char) : WDialect :=
  ⟨d, some (q.getD '"'), e, true, ['\n'], if q = none then .none else .minimal⟩

theorem mkWriter_simple (d : Char) (q e : Option Char) (strict : Bool) :
    mkWriter (.simple (dialectOf (some d) q e strict)) = .ok (simpleWriter d q e) := by
  cases q <;> cases e <;> rfl

/-- The writer of the excel dialect. -/
def excelWriter : WDialect := ⟨',', some '"', none, true, ['\r', '\n'], .minimal⟩

theorem mkWriter_excel : mkWriter (.name "excel") = .ok excelWriter := by
  simp only [mkWriter, makePythonDialect, getDialect_excel, bind, Except.bind]
  rfl

theorem writeRow_ok {wd : WDialect} (hq : wd.quoting ≠ .none) (hd : wd.doublequote = true)
    (row : List Str) : ∃ x, wd.writeRow row = .ok x := by
  have h1 : ∀ c, ∃ p, wd.writeChar c = .ok p := by
    intro c
    simp only [WDialect.writeChar, hq, hd, if_true, if_false, WDialect.escaped]
    split
    · exact ⟨_, rfl⟩
    · split
      · exact ⟨_, rfl⟩
      · split
        · rename_i h; rw [h]; exact ⟨_, rfl⟩
        · exact ⟨_, rfl⟩
  have h2 : ∀ s, ∃ p, wd.writeChars s = .ok p := by
    intro s
    induction s with
    | nil => exact ⟨_, rfl⟩
    | cons c cs ih =>
      obtain ⟨p, hp⟩ := h1 c
      obtain ⟨r, hr⟩ := ih
      exact ⟨_, by simp [WDialect.writeChars, hp, hr, bind, Except.bind, pure, Except.pure]; rfl⟩
  have h3 : ∀ s, ∃ x, wd.writeField s = .ok x := by
    intro s
    obtain ⟨p, hp⟩ := h2 s
    simp only [WDialect.writeField, hp, bind, Except.bind, pure, Except.pure]
    exact ⟨_, rfl⟩
  have h4 : ∀ row, ∃ x, wd.writeFields row = .ok x := by
    intro row
    induction row with
    | nil => exact ⟨_, rfl⟩
    | cons s row ih =>
      cases row with
      | nil => exact h3 s
      | cons t row =>
        obtain ⟨x, hx⟩ := h3 s
        obtain ⟨y, hy⟩ := ih
        simp only [WDialect.writeFields, hx, hy, bind, Except.bind, pure, Except.pure]
        exact ⟨_, rfl⟩
  obtain ⟨x, hx⟩ := h4 row
  simp only [WDialect.writeRow, hx, hq, if_false, bind, Except.bind, pure, Except.pure]
  split <;> exact ⟨_, rfl⟩

theorem writeRows_ok {wd : WDialect} (hq : wd.quoting ≠ .none) (hd : wd.doublequote = true)
    (rows : List (List Str)) : (wd.writeRows rows).2 = none := by
  induction rows with
  | nil => rfl
  | cons r rs ih =>
    obtain ⟨x, hx⟩ := writeRow_ok hq hd r
    simp [WDialect.writeRows, hx, ih]

theorem read_back {wd : WDialect} {d q e : Option Char} (limit : Int) (hl : InLong limit)
    (H : RT wd (cfgOf d q e limit false)) (arg : DialectArg)
    (harg : makeSimpleDialect arg {} = .ok (dialectOf d q e false)) (rows : List (List Str))
    (hw : (wd.writeRows rows).2 = none)
    (hn : ∀ row ∈ rows, ∀ s ∈ row, NUL ∉ s) (hok : ∀ row ∈ rows, ∀ s ∈ row, CellOK wd s)
    (hfit : ∀ row ∈ rows, ∀ s ∈ row, (s.length + 2 : Int) ≤ limit) :
    readText limit arg {} (wd.writeRows rows).1 = .ok rows := by
  rw [readText_of limit hl arg {} d q e false harg, run_rows H rows hw hn hok hfit]
  have : rows.map (fun row => (wd.rowFlags row).map (fun p => mkPlain p.1 p.2)) = rows := by
    simp only [rowFlags_fst, List.map_id']
  rw [this]
  rfl

end Clever.Props
