import Verif.Proofs.LimitMono
import Verif.Props.RoundTrip

/-!
# Reading back what was written, with any field size limit
-/

namespace Clever

open Props

theorem parseText_lim {cfg : Cfg} {L : Int} (h : cfg.fieldLimit ≤ L) {α : Type} (mk : Str → Bool → α) (t : Str) :
    parseText cfg mk t = parseText (cfg.withLimit L) mk t ∨
    (parseText cfg mk t).2 = some (.fieldLimit cfg.fieldLimit) ∧
      (parseText cfg mk t).1 <+: (parseText (cfg.withLimit L) mk t).1 :=
  parseRowsAux_lim h mk _ _

/-- A limit for which all cells leave room for two quotes. -/
theorem exists_limit (rows : List (List Str)) : ∃ n : Nat, ∀ row ∈ rows, ∀ s ∈ row, s.length + 2 ≤ n := by
  induction rows with
  | nil => exact ⟨0, by simp⟩
  | cons r rs ih =>
    obtain ⟨n, hn⟩ := ih
    have : ∃ m : Nat, ∀ s ∈ r, s.length + 2 ≤ m := by
      clear hn
      induction r with
      | nil => exact ⟨0, by simp⟩
      | cons s ss ih =>
        obtain ⟨m, hm⟩ := ih
        refine ⟨max m (s.length + 2), ?_⟩
        intro x hx
        rcases List.mem_cons.mp hx with rfl | hx
        · omega
        · have := hm x hx; omega
    obtain ⟨m, hm⟩ := this
    refine ⟨max n m, ?_⟩
    intro row hrow s hs
    rcases List.mem_cons.mp hrow with rfl | hrow
    · have := hm s hs; omega
    · have := hn row hrow s hs; omega

/-- What was written is read, or there is a field that is too long for the limit. -/
theorem read_back_any {wd : WDialect} {d q e : Option Char} (limit : Int) (hl : InLong limit)
    (H : ∀ l, RT wd (cfgOf d q e l false)) (arg : DialectArg)
    (harg : makeSimpleDialect arg {} = .ok (dialectOf d q e false)) (rows : List (List Str))
    (hw : (wd.writeRows rows).2 = none)
    (hn : ∀ row ∈ rows, ∀ s ∈ row, NUL ∉ s) (hok : ∀ row ∈ rows, ∀ s ∈ row, CellOK wd s) :
    readText limit arg {} (wd.writeRows rows).1 = .ok rows ∨
    readText limit arg {} (wd.writeRows rows).1 = .error (.parse (.fieldLimit limit)) := by
  obtain ⟨n, hfit⟩ := exists_limit rows
  rw [readText_of limit hl arg {} d q e false harg]
  have hbig := run_rows (α := Str) (mk := mkPlain) (H (max limit n)) rows hw hn hok
    (fun row hr s hs => by
      have := hfit row hr s hs
      simp only [cfgOf]
      omega)
  have hrows : rows.map (fun row => (wd.rowFlags row).map (fun p => mkPlain p.1 p.2)) = rows := by
    simp only [rowFlags_fst, List.map_id']
  rw [hrows] at hbig
  rcases parseText_lim (cfg := cfgOf d q e limit false) (L := max limit n) (by simp only [cfgOf]; omega) mkPlain
    (wd.writeRows rows).1 with h | ⟨h, -⟩
  · left
    rw [h, show (cfgOf d q e limit false).withLimit (max limit n) = cfgOf d q e (max limit n) false from rfl, hbig]
    rfl
  · right
    rcases hp : parseText (cfgOf d q e limit false) mkPlain (wd.writeRows rows).1 with ⟨a, b⟩
    rw [hp] at h
    simp only at h
    subst h
    rfl

theorem excel_read_back (limit : Int) (hl : InLong limit) (rows : List (List Str))
    (hn : ∀ row ∈ rows, ∀ s ∈ row, NUL ∉ s) :
    readText limit (.name "excel") {} (excelWriter.writeRows rows).1 = .ok rows ∨
    readText limit (.name "excel") {} (excelWriter.writeRows rows).1 = .error (.parse (.fieldLimit limit)) :=
  read_back_any limit hl (fun l => by constructor <;> simp [excelWriter, cfgOf, isNL, NUL]) _
    makeSimpleDialect_excel rows (writeRows_ok (by decide) rfl rows) hn
    (fun _ _ _ _ h => by simp [excelWriter] at h)

end Clever
