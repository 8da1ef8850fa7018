import Verif.Proofs.Standardize
import Verif.Spec.Commands

/-!
# The handling of one file, and the loop over the files
-/

namespace Clever

open Props

theorem parseString_inLong {limit : Int} {d : SimpleDialect} {t : Str}
    (h : (parseString limit d t).2 = none) : InLong limit := by
  unfold parseString parseData at h
  cases hc : d.cfg limit with
  | error e => rw [hc] at h; simp at h
  | ok cfg =>
    unfold SimpleDialect.cfg mkCfg at hc
    simp only [bind, Except.bind] at hc
    split at hc
    · simp at hc
    split at hc
    · simp at hc
    split at hc
    · simp at hc
    split at hc
    · simp at hc
    · rename_i v hl
      unfold setLong at hl
      split at hl
      · assumption
      · simp at hl

/-- What the excel writer writes for rows of a parse is read as these rows. -/
theorem excelText_reads {limit : Int} {d : SimpleDialect} {t : Str} {rows : List (List Str)}
    (h : parseString limit d t = (rows, none))
    (hfit : ∀ row ∈ rows, ∀ s ∈ row, (s.length + 2 : Int) ≤ limit) :
    readText limit (.name "excel") {} (excelText rows) = .ok rows := by
  have hl : InLong limit := parseString_inLong (d := d) (t := t) (by rw [h])
  have hn : ∀ row ∈ rows, ∀ s ∈ row, NUL ∉ s := by
    have := parseString_noNul limit d t
    rw [h] at this
    exact this
  obtain ⟨wd, text, h1, h2, h3⟩ := C01_excel_round_trip limit hl rows hn hfit
  rw [mkWriter_excel] at h1
  cases h1
  unfold excelText
  rw [h2]
  exact h3

/-- The last step of `handle_path`. -/
def deliver (sys : Sys) (a : StdArgs) (p : Path) (output : Option Path) (d : SimpleDialect)
    (encoding target : Option Str) : Act Nat :=
  if a.inPlace then inPlace sys a.transpose p d encoding target
  else
    match output with
    | none => toStdout sys a.transpose p d encoding
    | some o => toFile sys a.transpose p o d encoding target

/-- The first step of `handle_path`. -/
def stdChoose (sys : Sys) (p : Path) (encoding : Option Str) : Act (Option Str) :=
  match truthy encoding with
  | some e => pure (some e)
  | none => getEncoding sys p

theorem handlePath_eq (sys : Sys) (a : StdArgs) (p : Path) (output : Option Path) (encoding : Option Str) :
    handlePath sys a p output encoding = (stdChoose sys p encoding >>= fun encoding =>
      detectDialect sys p a.numChars encoding >>= fun r =>
      match r with
      | none => pure 1
      | some d => deliver sys a p output d encoding (stdTarget a encoding)) := by
  unfold handlePath stdChoose
  cases truthy encoding <;> rfl

theorem stdChoose_inv {sys : Sys} {p : Path} {enc e : Option Str} {w w' : World}
    (h : stdChoose sys p enc w = (.ok e, w')) :
    e = w.stdEncoding sys p enc ∧ w'.files = w.files ∧ w'.limit = w.limit ∧ w'.stdout = w.stdout := by
  unfold stdChoose at h
  unfold World.stdEncoding
  cases ht : truthy enc with
  | some x =>
    rw [ht] at h
    simp only [act_pure, Prod.mk.injEq, Except.ok.injEq] at h
    rw [← h.1, ← h.2]
    exact ⟨rfl, rfl, rfl, rfl⟩
  | none =>
    rw [ht] at h
    obtain ⟨h1, h2⟩ := getEncoding_inv h
    rw [h1, h2]
    exact ⟨rfl, rfl, rfl, rfl⟩

theorem only_stdChoose (P : Path → Prop) (sys : Sys) (p : Path) (enc : Option Str) :
    Only P (stdChoose sys p enc) := by
  unfold stdChoose
  cases truthy enc
  · exact only_getEncoding _ _ _
  · exact only_pure _ _

theorem truthy_some {e : Option Str} {x : Str} (h : truthy e = some x) : e = some x := by
  unfold truthy at h
  split at h
  · simp at h
  · exact h

theorem guess_next (sys : Sys) (w : World) (p : Path) : w.next.guess sys p = w.guess sys p := rfl

theorem detectDialect_inv {sys : Sys} {p : Path} {n : Option Int} {e : Option Str} {w w' : World}
    {r : Option SimpleDialect} (h : detectDialect sys p n e "auto".toList true w = (.ok r, w')) :
    ∃ text, w.text sys p (w.stdEncoding sys p e) = some text ∧
      (detect sys.env sys.order w.limit (Spec.detectionPart text n)).result = .ok r ∧
      w'.files = w.files ∧ w'.limit = w.limit ∧ w'.stdout = w.stdout := by
  unfold detectDialect at h
  have key : ∀ (e' : Option Str) (w1 : World), w1.files = w.files → w1.limit = w.limit → w1.stdout = w.stdout →
      (do let text ← openText sys p e'
          runDetector sys (readSome text n) "auto".toList true : Act (Option SimpleDialect)) w1 = (.ok r, w') →
      ∃ text, w.text sys p e' = some text ∧
        (detect sys.env sys.order w.limit (Spec.detectionPart text n)).result = .ok r ∧
        w'.files = w.files ∧ w'.limit = w.limit ∧ w'.stdout = w.stdout := by
    intro e' w1 hf hl hs h
    obtain ⟨text, w2, h2, h⟩ := bind_inv h
    obtain ⟨ht, rfl⟩ := openText_inv h2
    rw [text_files (w := w) (by rw [hf])] at ht
    refine ⟨text, ht, ?_⟩
    rw [readSome_eq, runDetector_apply] at h
    simp only [Prod.mk.injEq, World.next_limit, hl] at h
    refine ⟨h.1, ?_⟩
    rw [← h.2]
    exact ⟨hf, C37_restored_partial _ _ _ _ _ _ _ _ h.1, hs⟩
  simp only [] at h
  unfold World.stdEncoding
  cases ht : truthy e with
  | some x =>
    rw [ht] at h
    obtain ⟨e', w1, h1, h⟩ := bind_inv h
    simp only [act_pure, Prod.mk.injEq, Except.ok.injEq] at h1
    obtain ⟨rfl, rfl⟩ := h1
    exact key _ _ rfl rfl rfl h
  | none =>
    rw [ht] at h
    obtain ⟨e', w1, h1, h⟩ := bind_inv h
    obtain ⟨h1', h2'⟩ := getEncoding_inv h1
    rw [h1'] at h
    exact key _ w1 (by rw [h2']; rfl) (by rw [h2']; rfl) (by rw [h2']; rfl) h

theorem stdEncoding_idem (sys : Sys) (w : World) (p : Path) (e : Option Str) :
    w.stdEncoding sys p (w.stdEncoding sys p e) = w.stdEncoding sys p e := by
  unfold World.stdEncoding
  cases h : truthy e with
  | some x =>
    simp only
    have := truthy_some h
    subst this
    rw [h]
  | none =>
    simp only
    cases h2 : truthy (w.guess sys p) with
    | some y => simp only; exact (truthy_some h2).symm
    | none => rfl

/-- Handling a file: its text in the encoding, the detection on the requested part, and what happens then, in a
world with the same files. -/
theorem handlePath_inv {sys : Sys} {a : StdArgs} {p : Path} {output : Option Path} {enc : Option Str}
    {w w' : World} {c : Nat} (h : handlePath sys a p output enc w = (.ok c, w')) :
    ∃ text r w1, w.text sys p (w.stdEncoding sys p enc) = some text ∧
      (detect sys.env sys.order w.limit (Spec.detectionPart text a.numChars)).result = .ok r ∧
      w1.files = w.files ∧ w1.limit = w.limit ∧ w1.stdout = w.stdout ∧
      (r = none ∧ c = 1 ∧ w' = w1 ∨
       ∃ d, r = some d ∧ deliver sys a p output d (w.stdEncoding sys p enc)
         (stdTarget a (w.stdEncoding sys p enc)) w1 = (.ok c, w')) := by
  rw [handlePath_eq] at h
  obtain ⟨e, w0, h0, h⟩ := bind_inv h
  obtain ⟨rfl, hf, hl, hs⟩ := stdChoose_inv h0
  obtain ⟨r, w1, h1, h⟩ := bind_inv h
  obtain ⟨text, ht, hd, h1f, h1l, h1s⟩ := detectDialect_inv h1
  have hguess : w0.stdEncoding sys p (w.stdEncoding sys p enc) = w.stdEncoding sys p enc := by
    have : w0.stdEncoding sys p (w.stdEncoding sys p enc) = w.stdEncoding sys p (w.stdEncoding sys p enc) := by
      unfold World.stdEncoding World.guess
      rw [hf]
    rw [this, stdEncoding_idem]
  rw [hguess, text_files (w := w) (by rw [hf])] at ht
  rw [hl] at hd
  refine ⟨text, r, w1, ht, hd, h1f.trans hf, h1l.trans hl, h1s.trans hs, ?_⟩
  cases r with
  | none =>
    simp only [act_pure, Prod.mk.injEq, Except.ok.injEq] at h
    exact .inl ⟨rfl, h.1.symm, h.2.symm⟩
  | some d => exact .inr ⟨d, rfl, h⟩

/-- Handling a file that raises: before or after the last step has begun. -/
theorem handlePath_error {sys : Sys} {a : StdArgs} {p : Path} {output : Option Path} {enc : Option Str}
    {w w' : World} {x : PyExc} (h : handlePath sys a p output enc w = (.error x, w')) :
    w'.files = w.files ∨
    ∃ text d w1, w.text sys p (w.stdEncoding sys p enc) = some text ∧
      (detect sys.env sys.order w.limit (Spec.detectionPart text a.numChars)).result = .ok (some d) ∧
      w1.files = w.files ∧ w1.limit = w.limit ∧ w1.stdout = w.stdout ∧
      deliver sys a p output d (w.stdEncoding sys p enc) (stdTarget a (w.stdEncoding sys p enc)) w1 =
        (.error x, w') := by
  rw [handlePath_eq] at h
  have hnone : ∀ {α : Type} {m : Act α} {w w' : World} {x : Except PyExc α}, (∀ P, Only P m) → m w = (x, w') →
      w'.files = w.files := by
    intro α m w w' x hm h
    funext q
    have := hm (fun _ => False) w q id
    rw [h] at this
    exact this
  rcases bind_error_inv h with h | ⟨e, w0, h0, h⟩
  · exact .inl (hnone (fun P => only_stdChoose P sys p enc) h)
  have hf := hnone (fun P => only_stdChoose P sys p enc) h0
  rcases bind_error_inv h with h | ⟨r, w1, h1, h⟩
  · exact .inl ((hnone (fun P => only_detectDialect P sys p _ _ _ _) h).trans hf)
  cases r with
  | none => simp at h
  | some d =>
    right
    obtain ⟨rfl, hf, hl, hs⟩ := stdChoose_inv h0
    obtain ⟨text, ht, hd, h1f, h1l, h1s⟩ := detectDialect_inv h1
    have hguess : w0.stdEncoding sys p (w.stdEncoding sys p enc) = w.stdEncoding sys p enc := by
      have : w0.stdEncoding sys p (w.stdEncoding sys p enc) = w.stdEncoding sys p (w.stdEncoding sys p enc) := by
        unfold World.stdEncoding World.guess
        rw [hf]
      rw [this, stdEncoding_idem]
    rw [hguess, text_files (w := w) (by rw [hf])] at ht
    rw [hl] at hd
    exact ⟨text, d, w1, ht, hd, h1f.trans hf, h1l.trans hl, h1s.trans hs, h⟩

theorem deliver_codes {sys : Sys} {a : StdArgs} {p : Path} {output : Option Path} {d : SimpleDialect}
    {enc target : Option Str} {w w' : World} {c : Nat} {old : Bytes} (ho : w.files p = some old)
    (h : deliver sys a p output d enc target w = (.ok c, w')) : c = 0 ∨ c = 2 := by
  unfold deliver at h
  split at h
  · obtain ⟨_, _, _, _, _, _, _, _, h' | h'⟩ := inPlace_inv ho h
    · exact .inl h'.1
    · exact .inr h'.1
  · split at h
    · obtain ⟨_, _, _, _, _, _, h, _⟩ := toStdout_inv h
      exact .inl h
    · unfold toFile at h
      obtain ⟨_, _, -, h⟩ := bind_inv h
      obtain ⟨_, _, -, h⟩ := bind_inv h
      obtain ⟨_, _, -, h⟩ := bind_inv h
      simp only [act_pure, Prod.mk.injEq, Except.ok.injEq] at h
      exact .inl h.1.symm

theorem handlePath_codes {sys : Sys} {a : StdArgs} {p : Path} {output : Option Path} {enc : Option Str}
    {w w' : World} {c : Nat} (h : handlePath sys a p output enc w = (.ok c, w')) : c = 0 ∨ c = 1 ∨ c = 2 := by
  obtain ⟨text, r, w1, ht, -, hf, -, -, h⟩ := handlePath_inv h
  rcases h with ⟨-, h, -⟩ | ⟨d, -, h⟩
  · exact .inr (.inl h)
  · obtain ⟨b, hb⟩ := text_some ht
    rcases deliver_codes (by rw [hf]; exact hb) h with h | h
    · exact .inl h
    · exact .inr (.inr h)

end Clever
