import Verif.Proofs.ReadBack
import Verif.Spec.ExactFit

/-!
# Helper lemmas: written cells that do not fit the field size limit
-/

namespace Clever

variable {α : Type} {wd : WDialect} {cfg : Cfg} {mk : Str → Bool → α}

theorem addChar_full {o : PObj α} {c : Char} (h : cfg.fieldLimit ≤ (o.field.length : Int)) :
    addChar cfg o c = .error (.fieldLimit cfg.fieldLimit) := by
  rw [addChar, if_pos h]

theorem textRun_err {o : PObj α} {c : Char} {rest : Str} {e : PErr} (hc : c ≠ NUL)
    (h : ∀ v, processChar cfg mk o c v = .error e) : textRun cfg mk o (c :: rest) = ([], some e) := by
  rw [textRun, if_neg hc]
  simp only [h]
  split <;> rfl

theorem unq_char_full (H : RT wd cfg) {o : PObj α} {c : Char} {x tail : Str}
    (hw : wd.writeChar c = .ok (x, false)) (hc : c ≠ NUL) (hok : CellOK wd [c])
    (hst : Unq o.state) (hl : cfg.fieldLimit ≤ (o.field.length : Int)) :
    textRun cfg mk o (x ++ tail) = ([], some (.fieldLimit cfg.fieldLimit)) := by
  by_cases hsp : wd.special c = false
  · simp only [WDialect.writeChar, hsp, Bool.not_false, if_true, Except.ok.injEq, Prod.mk.injEq,
      and_true] at hw
    subst hw
    obtain ⟨h1, h2, h3, h4⟩ := special_false H hsp hc
    refine textRun_err hc fun v => ?_
    rcases hst with hst | hst | hst <;>
      simp [processChar, hst, stepStartField, stepInField, h1, hc, h2, h3, h4, addChar_full hl, bind, Except.bind]
  · obtain ⟨e, he, rfl, hkind⟩ := writeChar_escaped H hw hok hsp
    have heNul := H.eNul e he
    have heNL := H.eNL e he
    have hcfge : cfg.escapechar = e := by rw [H.esc, he]; rfl
    have heq : e ≠ cfg.quotechar := by
      intro hh
      by_cases hq : wd.quoting = .none
      · rw [H.noq hq] at hh; exact heNul hh
      · exact (H.quo hq).2.2.2.2.2 (by rw [he, hh])
    have hstep : ∀ v, processChar cfg mk o e v = .ok (o.to .escapedChar) := by
      intro v
      rcases hst with hst | hst | hst <;>
        simp [processChar, hst, stepStartField, stepInField, heNL, heNul, heq, hcfge]
    have hrun : textRun cfg mk o ([e, c] ++ tail) = textRun cfg mk (o.to .escapedChar) (c :: tail) :=
      textRun_step heNul heNL (by simp) (hstep _)
    rw [hrun]
    refine textRun_err hc fun v => ?_
    have hf : ∀ d st, addChar cfg { o with state := st } d = .error (.fieldLimit cfg.fieldLimit) := fun d st =>
      addChar_full (o := { o with state := st }) hl
    simp only [processChar, PObj.to, hf, bind, Except.bind]
    repeat' split
    all_goals first | rfl | contradiction

theorem unq_full (H : RT wd cfg) (s : Str) : ∀ {o : PObj α} {x tail : Str},
    wd.writeChars s = .ok (x, false) → NUL ∉ s → CellOK wd s → Unq o.state → tail ≠ [] →
    s ≠ [] → cfg.fieldLimit < ((o.field.length + s.length : Nat) : Int) →
    textRun cfg mk o (x ++ tail) = ([], some (.fieldLimit cfg.fieldLimit)) := by
  induction s with
  | nil =>
    intro o x tail hw _ _ _ _ h1 h2
    exact absurd rfl h1
  | cons c cs ih =>
    intro o x tail hw hn hok hst ht h1 h2
    obtain ⟨x₁, b₁, x₂, b₂, k1, k2, rfl, hb⟩ := writeChars_cons hw
    simp only [Bool.false_eq, Bool.or_eq_false_iff] at hb
    obtain ⟨rfl, rfl⟩ := hb
    simp only [List.mem_cons, not_or] at hn
    simp only [List.length_cons] at h2
    have hok1 : CellOK wd [c] := fun hq c' hc' => hok hq c' (by simp at hc'; simp [hc'])
    rw [List.append_assoc]
    by_cases hlt : (o.field.length : Int) < cfg.fieldLimit
    · obtain ⟨st, hst', hr⟩ := run_unq_char (mk := mk) (tail := x₂ ++ tail) H k1 (Ne.symm hn.1) hok1 hst (by simp [ht]) hlt
      rw [hr]
      refine ih k2 hn.2 (fun hq c' hc' => hok hq c' (by simp [hc'])) (by
        rcases hst' with h | h <;> simp [Unq, h]) ht (by rintro rfl; simp at h2; omega) (by simp; omega)
    · exact unq_char_full H k1 (Ne.symm hn.1) hok1 hst (by omega)

theorem quo_char_full (H : RT wd cfg) (hq : wd.quoting ≠ .none) {o : PObj α} {c : Char}
    {x tail : Str} {b : Bool} (hw : wd.writeChar c = .ok (x, b)) (hc : c ≠ NUL)
    (hst : o.state = .inQuotedField) (hl : cfg.fieldLimit ≤ (o.field.length : Int)) :
    textRun cfg mk o (x ++ tail) = ([], some (.fieldLimit cfg.fieldLimit)) := by
  have hf : ∀ d st, addChar cfg { o with state := st } d = .error (.fieldLimit cfg.fieldLimit) := fun d st =>
    addChar_full (o := { o with state := st }) hl
  obtain ⟨hq1, hdq, hqNul, hqNL, hqd, hqe⟩ := H.quo hq
  by_cases hcq : c = cfg.quotechar
  · have hsp : wd.special c = true := by simp [WDialect.special, hq1, hcq]
    simp only [WDialect.writeChar, hsp, Bool.not_true, Bool.false_eq_true, if_false, hq, hcq ▸ hq1,
      hdq, if_true, Except.ok.injEq, Prod.mk.injEq] at hw
    obtain ⟨rfl, _⟩ := hw
    have hne : cfg.quotechar ≠ cfg.escapechar := by
      rw [H.esc]
      cases he : wd.escapechar with
      | none => simpa using hqNul
      | some e => intro hh; simp at hh; exact hqe (by rw [he, hh])
    subst hcq
    have e1 : textRun cfg mk o ([cfg.quotechar, cfg.quotechar] ++ tail) =
        textRun cfg mk (o.to .quoteInQuotedField) (cfg.quotechar :: tail) := by
      apply textRun_step hc hqNL (by simp)
      simp [processChar, hst, hc, hne]
    rw [e1]
    refine textRun_err hc fun v => ?_
    simp [processChar, PObj.to, hf, bind, Except.bind]
  · by_cases hce : c = cfg.escapechar
    · cases he : wd.escapechar with
      | none => rw [H.esc, he] at hce; exact absurd hce hc
      | some e =>
        have hcfge : cfg.escapechar = e := by rw [H.esc, he]; rfl
        rw [hcfge] at hce
        subst hce
        have hsp : wd.special c = true := by simp [WDialect.special, he]
        have hq2 : wd.quotechar ≠ some c := by rw [hq1]; simpa using Ne.symm hcq
        simp [WDialect.writeChar, hsp, hq, hq2, he, WDialect.escaped, Except.map] at hw
        obtain ⟨rfl, _⟩ := hw
        have e1 : textRun cfg mk o ([c, c] ++ tail) =
            textRun cfg mk (o.to .escapeInQuotedField) (c :: tail) := by
          apply textRun_step hc (H.eNL c he) (by simp)
          simp [processChar, hst, hc, hcfge]
        rw [e1]
        refine textRun_err hc fun v => ?_
        simp [processChar, PObj.to, hcfge, hc, hf, bind, Except.bind]
    · have hx : x = [c] := by
        have h1 : wd.quotechar ≠ some c := by rw [hq1]; simpa using Ne.symm hcq
        have h2 : wd.escapechar ≠ some c := by
          intro hh; exact hce (by rw [H.esc, hh]; rfl)
        simp only [WDialect.writeChar, hq, h1, h2, if_false] at hw
        split at hw <;> simp at hw <;> exact hw.1.symm
      subst hx
      refine textRun_err hc fun v => ?_
      simp [processChar, hst, hc, hce, hcq, addChar_full hl]

theorem quo_full (H : RT wd cfg) (hq : wd.quoting ≠ .none) (s : Str) :
    ∀ {o : PObj α} {x tail : Str} {b : Bool},
    wd.writeChars s = .ok (x, b) → NUL ∉ s → o.state = .inQuotedField → tail ≠ [] →
    s ≠ [] → cfg.fieldLimit < ((o.field.length + s.length : Nat) : Int) →
      textRun cfg mk o (x ++ tail) = ([], some (.fieldLimit cfg.fieldLimit)) := by
  induction s with
  | nil =>
    intro o x tail b hw _ _ _ h1 h2
    exact absurd rfl h1
  | cons c cs ih =>
    intro o x tail b hw hn hst ht h1 h2
    obtain ⟨x₁, b₁, x₂, b₂, k1, k2, rfl, hb⟩ := writeChars_cons hw
    simp only [List.mem_cons, not_or] at hn
    simp only [List.length_cons] at h2
    rw [List.append_assoc]
    by_cases hlt : (o.field.length : Int) < cfg.fieldLimit
    · rw [run_quo_char (mk := mk) (tail := x₂ ++ tail) H hq k1 (Ne.symm hn.1) hst (by simp [ht]) hlt]
      exact ih k2 hn.2 hst ht (by rintro rfl; simp at h2; omega) (by simp; omega)
    · exact quo_char_full H hq k1 (Ne.symm hn.1) hst (by omega)

/-- A written field that does not fit. -/
theorem field_full (H : RT wd cfg) (s : Str) {o : PObj α} {x tail : Str}
    (hw : wd.writeField s = .ok x) (hn : NUL ∉ s) (hok : CellOK wd s)
    (hst : o.state = .startField) (hf : o.field = []) (t : Char) (rest : Str)
    (ht : tail = t :: rest) (htq : wd.quoting ≠ .none → t ≠ cfg.quotechar)
    (hl : max cfg.fieldLimit 0 < (room s (wd.quotes s) : Int)) :
    textRun cfg mk o (x ++ tail) = ([], some (.fieldLimit cfg.fieldLimit)) := by
  simp only [WDialect.writeField, bind, Except.bind, pure, Except.pure] at hw
  cases h1 : wd.writeChars s with
  | error e => simp [h1] at hw
  | ok p =>
    obtain ⟨y, b⟩ := p
    simp only [h1, Except.ok.injEq] at hw
    by_cases hb : (b || decide (wd.quoting = .all) || decide (wd.quoting = .nonnumeric)) = true
    · have hq : wd.quoting ≠ .none := by
        intro hq
        rw [writeChars_none hq s h1, hq] at hb
        simp at hb
      obtain ⟨hq1, hdq, hqNul, hqNL, hqd, hqe⟩ := H.quo hq
      simp only [hb, if_true, hq1, Option.toList_some] at hw
      subst hw
      have hquo : wd.quotes s = true := by rw [WDialect.quotes, h1]; exact hb
      rw [hquo] at hl
      simp only [room, if_true] at hl
      have hne : cfg.quotechar ≠ cfg.escapechar := by
        rw [H.esc]
        cases he : wd.escapechar with
        | none => simpa using hqNul
        | some e => intro hh; simp at hh; exact hqe (by rw [he, hh])
      by_cases h0 : cfg.fieldLimit ≤ 0
      · simp only [List.append_assoc, List.cons_append, List.nil_append]
        refine textRun_err hqNul fun v => ?_
        simp [processChar, hst, stepStartField, hqNL, hqNul, bind, Except.bind,
          addChar_full (o := o) (c := cfg.quotechar) (by rw [hf]; simpa using h0)]
      have e1 : textRun cfg mk o ([cfg.quotechar] ++ y ++ [cfg.quotechar] ++ tail) =
          textRun cfg mk { o with field := [cfg.quotechar], state := .inQuotedField }
            (y ++ (cfg.quotechar :: tail)) := by
        simp only [List.append_assoc, List.cons_append, List.nil_append]
        apply textRun_step hqNul hqNL (by simp)
        simp only [processChar, hst, stepStartField, hqNL, hqNul, decide_false, Bool.or_self,
          Bool.false_eq_true, if_false, if_true, bind, Except.bind, addChar, hf, List.length_nil]
        rw [if_neg (by omega)]
        simp [PObj.to]
      rw [e1]
      by_cases h2 : cfg.fieldLimit < ((1 + s.length : Nat) : Int)
      · exact quo_full H hq s h1 hn rfl (by simp) (by rintro rfl; simp at h2; omega) (by simpa using h2)
      · rw [run_quo H hq s h1 hn rfl (by simp) (by simp; omega)]
        have hv : tail.headD NUL ≠ cfg.quotechar := by rw [ht]; exact htq hq
        rw [textRun, if_neg hqNul]
        have hne2 : tail.isEmpty = false := by rw [ht]; rfl
        simp only [lineEndAfter_not_nl hqNL, hne2, Bool.or_self, Bool.false_eq_true, if_false]
        have hadd : ∀ (f : Str), cfg.fieldLimit ≤ (f.length : Int) → addChar cfg ({ o with field := f, state := .inQuotedField } : PObj α)
            cfg.quotechar = .error (.fieldLimit cfg.fieldLimit) := fun f hf => addChar_full hf
        simp only [processChar, hqNul, if_false, hne, if_true, hv, H.lax, Bool.false_eq_true, bind, Except.bind]
        rw [hadd _ (by simp; omega)]
    · simp only [hb, if_false] at hw
      subst hw
      have hb' : b = false := by
        cases b <;> simp_all
      subst hb'
      have hquo : wd.quotes s = false := by rw [WDialect.quotes, h1]; exact Bool.eq_false_iff.2 hb
      rw [hquo] at hl
      simp only [room, Bool.false_eq_true, if_false] at hl
      exact unq_full H s h1 hn hok (Or.inl hst) (by simp [ht]) (by rintro rfl; simp at hl; omega) (by simp [hf]; omega)

theorem fields_full (H : RT wd cfg) (row : List Str) :
    ∀ (s : Str) {o : PObj α} {x rest : Str},
    wd.writeFields (s :: row) = .ok x → (∀ s' ∈ s :: row, NUL ∉ s') →
    (∀ s' ∈ s :: row, CellOK wd s') →
    o.state = .startField → o.field = [] →
    (∃ s' ∈ s :: row, max cfg.fieldLimit 0 < (room s' (wd.quotes s') : Int)) →
    textRun cfg mk o (x ++ (wd.lineterminator ++ rest)) = ([], some (.fieldLimit cfg.fieldLimit)) := by
  induction row with
  | nil =>
    intro s o x rest hw hn hok hst hf hl
    simp only [WDialect.writeFields] at hw
    obtain ⟨t, r, ht, htn⟩ := lt_head H rest
    obtain ⟨s', hs', hl⟩ := hl
    simp only [List.mem_singleton] at hs'
    subst hs'
    exact field_full (mk := mk) H s' hw (hn s' (by simp)) (hok s' (by simp)) hst hf t r ht (nl_ne_quote H htn) hl
  | cons s₂ row ih =>
    intro s o x rest hw hn hok hst hf hl
    simp only [WDialect.writeFields, bind, Except.bind, pure, Except.pure] at hw
    cases hx1 : wd.writeField s with
    | error e => simp [hx1] at hw
    | ok x1 =>
      cases hx2 : wd.writeFields (s₂ :: row) with
      | error e => simp [hx1, hx2] at hw
      | ok x2 =>
        simp [hx1, hx2] at hw
        subst hw
        rw [List.append_assoc, List.cons_append]
        by_cases hfit : (room s (wd.quotes s) : Int) ≤ max cfg.fieldLimit 0
        · obtain ⟨o₁, h1, h2, h3, h4⟩ := run_field (mk := mk)
            (tail := wd.delimiter :: (x2 ++ (wd.lineterminator ++ rest))) H s hx1
            (hn s (by simp)) (hok s (by simp)) hst hf _ _ rfl
            (fun hq => (H.quo hq).2.2.2.2.1.symm) hfit
          have hne : x2 ++ (wd.lineterminator ++ rest) ≠ [] := by
            obtain ⟨t, r, ht, _⟩ := lt_head H rest
            simp [ht]
          rw [h1, run_delim H h2 hne]
          refine ih s₂ hx2 (fun s' hs' => hn s' (by simp [hs'])) (fun s' hs' => hok s' (by simp [hs'])) rfl rfl ?_
          obtain ⟨s', hs', hl⟩ := hl
          rcases List.mem_cons.1 hs' with rfl | hs'
          · omega
          · exact ⟨s', hs', hl⟩
        · exact field_full (mk := mk) H s hx1 (hn s (by simp)) (hok s (by simp)) hst hf _ _ rfl
            (fun hq => (H.quo hq).2.2.2.2.1.symm) (by omega)

theorem row_full (H : RT wd cfg) (row : List Str) {x rest : Str} (hw : wd.writeRow row = .ok x)
    (hn : ∀ s ∈ row, NUL ∉ s) (hok : ∀ s ∈ row, CellOK wd s)
    (hl : ∃ p ∈ wd.rowFlags row, max cfg.fieldLimit 0 < (room p.1 p.2 : Int)) :
    textRun cfg mk PObj.init (x ++ rest) = ([], some (.fieldLimit cfg.fieldLimit)) := by
  cases row with
  | nil =>
    obtain ⟨p, hp, -⟩ := hl
    simp [WDialect.rowFlags] at hp
  | cons s row =>
    simp only [WDialect.writeRow, bind, Except.bind, pure, Except.pure] at hw
    cases hy : wd.writeFields (s :: row) with
    | error e => simp [hy] at hw
    | ok y =>
      simp only [hy] at hw
      by_cases hyn : y = []
      · -- a single empty field
        subst hyn
        obtain ⟨rfl, rfl⟩ := writeFields_nil hy
        simp only [ne_eq, reduceCtorEq, not_false_eq_true, and_self, if_true] at hw
        by_cases hq : wd.quoting = .none
        · simp [hq] at hw
        · simp only [hq, if_false, Except.ok.injEq] at hw
          subst hw
          obtain ⟨hq1, hdq, hqNul, hqNL, hqd, hqe⟩ := H.quo hq
          have hl' : cfg.fieldLimit < 2 := by
            obtain ⟨p, hp, hl⟩ := hl
            simp [WDialect.rowFlags] at hp
            subst hp
            simp [room] at hl
            omega
          obtain ⟨t, r, ht, htn⟩ := lt_head H rest
          have hne : cfg.quotechar ≠ cfg.escapechar := by
            rw [H.esc]
            cases he : wd.escapechar with
            | none => simpa using hqNul
            | some e => intro hh; simp at hh; exact hqe (by rw [he, hh])
          simp only [hq1, Option.toList_some, List.append_assoc, List.cons_append, List.nil_append]
          rw [textRun_init hqNul hqNL]
          by_cases h0 : cfg.fieldLimit ≤ 0
          · refine textRun_err hqNul fun v => ?_
            have ha := addChar_full (cfg := cfg) (o := (⟨[], [], .startField⟩ : PObj α))
              (c := cfg.quotechar) (by simpa using h0)
            simp [processChar, PObj.to, PObj.init, stepStartField, hqNL, hqNul, bind, Except.bind, ha]
          have e1 : textRun cfg mk ((PObj.init : PObj α).to .startField)
                (cfg.quotechar :: cfg.quotechar :: (wd.lineterminator ++ rest)) =
              textRun cfg mk (⟨[], [cfg.quotechar], .inQuotedField⟩ : PObj α)
                (cfg.quotechar :: (wd.lineterminator ++ rest)) := by
            apply textRun_step hqNul hqNL (by simp)
            have ha := addChar_fits (cfg := cfg) (o := (⟨[], [], .startField⟩ : PObj α))
              (c := cfg.quotechar) (by simp; omega)
            simp [processChar, PObj.to, PObj.init, stepStartField, hqNL, hqNul, bind, Except.bind,
              ha]
          rw [e1]
          have hv : (wd.lineterminator ++ rest).headD NUL ≠ cfg.quotechar := by
            rw [ht]; exact nl_ne_quote H htn hq
          rw [textRun, if_neg hqNul]
          have hne2 : (wd.lineterminator ++ rest).isEmpty = false := by rw [ht]; rfl
          simp only [lineEndAfter_not_nl hqNL, hne2, Bool.or_self, Bool.false_eq_true, if_false]
          have hadd := addChar_full (cfg := cfg) (o := (⟨[], [cfg.quotechar], .inQuotedField⟩ : PObj α))
            (c := cfg.quotechar) (by simp; omega)
          simp only [processChar, hqNul, if_false, hne, if_true, hv, H.lax, Bool.false_eq_true, bind, Except.bind,
            hadd]
      · simp only [hyn, false_and, if_false, Except.ok.injEq] at hw
        subst hw
        obtain ⟨a, r, hyr, ha, han⟩ := writeFields_head H row s hy (hn s (by simp)) hyn
        have hl2 : ∃ s' ∈ s :: row, max cfg.fieldLimit 0 < (room s' (wd.quotes s') : Int) := by
          obtain ⟨p, hp, hl⟩ := hl
          rw [WDialect.rowFlags] at hp
          split at hp
          · rename_i h
            simp only [List.cons.injEq] at h
            obtain ⟨rfl, rfl⟩ := h
            simp only [List.mem_singleton] at hp
            subst hp
            refine ⟨[], by simp, ?_⟩
            have hq : wd.quotes [] = true := by
              simp only [WDialect.writeFields, WDialect.writeField, WDialect.writeChars, bind,
                Except.bind, pure, Except.pure, Bool.false_or, Except.ok.injEq] at hy
              simp only [WDialect.quotes, WDialect.writeChars, Bool.false_or]
              split at hy
              · assumption
              · exact absurd hy.symm hyn
            rw [hq]
            exact hl
          · simp only [List.mem_map] at hp
            obtain ⟨s', hs', rfl⟩ := hp
            exact ⟨s', hs', hl⟩
        have := fields_full (mk := mk) (o := (PObj.init : PObj α).to .startField) (rest := rest)
          H row s hy hn hok rfl rfl hl2
        rw [List.append_assoc]
        rw [hyr] at this ⊢
        rw [List.cons_append, textRun_init ha han]
        rw [List.cons_append] at this
        rw [this]

/-- Written rows are read back up to the first that has a cell without room; that one is an error. -/
theorem run_rows_exact (H : RT wd cfg) (rows : List (List Str))
    (hw : (wd.writeRows rows).2 = none)
    (hn : ∀ row ∈ rows, ∀ s ∈ row, NUL ∉ s) (hok : ∀ row ∈ rows, ∀ s ∈ row, CellOK wd s)
    (fits : List Str → Bool)
    (hfits : ∀ row ∈ rows, fits row = true ↔ ∀ p ∈ wd.rowFlags row, (room p.1 p.2 : Int) ≤ max cfg.fieldLimit 0) :
    parseText cfg mk (wd.writeRows rows).1 =
      ((rows.takeWhile fits).map (fun row => (wd.rowFlags row).map (fun p => mk p.1 p.2)),
        if rows.all fits then none else some (.fieldLimit cfg.fieldLimit)) := by
  rw [parseText_eq_textRun]
  induction rows with
  | nil => simp [WDialect.writeRows, textRun, atEOF, PObj.init]
  | cons row rows ih =>
    simp only [WDialect.writeRows] at hw ⊢
    cases hx : wd.writeRow row with
    | error e => simp [hx] at hw
    | ok x =>
      simp only [hx] at hw ⊢
      by_cases hr : fits row = true
      · rw [run_row H row hx (hn row (by simp)) (hok row (by simp)) ((hfits row (by simp)).1 hr),
          ih hw (fun r hr => hn r (by simp [hr])) (fun r hr => hok r (by simp [hr]))
            (fun r hr => hfits r (by simp [hr]))]
        simp [hr]
      · have hbad : ∃ p ∈ wd.rowFlags row, max cfg.fieldLimit 0 < (room p.1 p.2 : Int) := by
          apply Classical.byContradiction
          intro hno
          refine hr ((hfits row (by simp)).2 fun p hp => ?_)
          apply Classical.byContradiction
          intro h
          exact hno ⟨p, hp, by omega⟩
        rw [row_full H row hx (hn row (by simp)) (hok row (by simp)) hbad]
        simp [hr]

end Clever

namespace Clever

open Props Spec

/-- A text with a NUL cannot be read. -/
theorem textRun_nul_error {α : Type} {cfg : Cfg} {mk : Str → Bool → α} {t : Str} (h : NUL ∈ t) (o : PObj α) :
    (textRun cfg mk o t).2 ≠ none := by
  induction t generalizing o with
  | nil => simp at h
  | cons c rest ih =>
    rw [textRun]
    split
    · simp
    · rename_i hc
      have hr : NUL ∈ rest := by
        rcases List.mem_cons.1 h with h | h
        · exact absurd h.symm hc
        · exact h
      split
      · split
        · simp
        · split
          · simp
          · rw [emit]
            split
            · exact ih hr _
            · exact ih hr _
      · split
        · simp
        · exact ih hr _

section
variable {wd : WDialect}

theorem writeChar_mem {c : Char} {x : Str} {b : Bool} (h : wd.writeChar c = .ok (x, b)) : c ∈ x := by
  have hesc : ∀ y, (wd.escaped c).map (·, false) = .ok (y, b) → c ∈ y := by
    intro y hy
    simp only [WDialect.escaped] at hy
    cases he : wd.escapechar with
    | none => simp [he, Except.map] at hy
    | some e => simp [he, Except.map] at hy; simp [← hy.1]
  simp only [WDialect.writeChar] at h
  repeat' split at h
  all_goals first
    | exact hesc _ h
    | (simp at h; simp [← h.1])

theorem writeChars_mem {s x : Str} {b : Bool} (h : wd.writeChars s = .ok (x, b)) {c : Char} (hc : c ∈ s) : c ∈ x := by
  induction s generalizing x b with
  | nil => simp at hc
  | cons a s ih =>
    obtain ⟨x₁, b₁, x₂, b₂, h1, h2, rfl, _⟩ := writeChars_cons h
    rcases List.mem_cons.1 hc with rfl | hc
    · simp [writeChar_mem h1]
    · simp [ih h2 hc]

theorem writeField_mem {s x : Str} (h : wd.writeField s = .ok x) {c : Char} (hc : c ∈ s) : c ∈ x := by
  simp only [WDialect.writeField, bind, Except.bind, pure, Except.pure] at h
  cases h1 : wd.writeChars s with
  | error e => simp [h1] at h
  | ok p =>
    simp only [h1, Except.ok.injEq] at h
    have := writeChars_mem (x := p.1) (b := p.2) h1 hc
    subst h
    split <;> simp [this]

theorem writeFields_mem {row : List Str} {x : Str} (h : wd.writeFields row = .ok x) {s : Str} (hs : s ∈ row) {c : Char}
    (hc : c ∈ s) : c ∈ x := by
  induction row generalizing x with
  | nil => simp at hs
  | cons a row ih =>
    cases row with
    | nil =>
      simp only [List.mem_singleton] at hs
      subst hs
      exact writeField_mem h hc
    | cons t row =>
      simp only [WDialect.writeFields, bind, Except.bind, pure, Except.pure] at h
      cases hx : wd.writeField a with
      | error e => simp [hx] at h
      | ok x₁ =>
        cases hy : wd.writeFields (t :: row) with
        | error e => simp [hx, hy] at h
        | ok y =>
          simp [hx, hy] at h
          subst h
          rcases List.mem_cons.1 hs with rfl | hs
          · simp [writeField_mem hx hc]
          · simp [ih hy hs]

theorem writeRow_mem {row : List Str} {x : Str} (h : wd.writeRow row = .ok x) {s : Str} (hs : s ∈ row) {c : Char}
    (hc : c ∈ s) : c ∈ x := by
  simp only [WDialect.writeRow, bind, Except.bind, pure, Except.pure] at h
  cases hy : wd.writeFields row with
  | error e => simp [hy] at h
  | ok y =>
    have := writeFields_mem hy hs hc
    simp only [hy] at h
    rw [if_neg (by rintro ⟨rfl, -⟩; simp at this)] at h
    simp only [Except.ok.injEq] at h
    subst h
    simp [this]

theorem writeRows_mem {rows : List (List Str)} (h : (wd.writeRows rows).2 = none) {row : List Str} (hr : row ∈ rows)
    {s : Str} (hs : s ∈ row) {c : Char} (hc : c ∈ s) : c ∈ (wd.writeRows rows).1 := by
  induction rows with
  | nil => simp at hr
  | cons r rs ih =>
    simp only [WDialect.writeRows] at h ⊢
    cases hx : wd.writeRow r with
    | error e => simp [hx] at h
    | ok x =>
      simp only [hx] at h ⊢
      rcases List.mem_cons.1 hr with rfl | hr
      · simp [writeRow_mem hx hs hc]
      · simp [ih h hr]

end

/-- What is read of what was written, for any cells. -/
theorem read_exact {wd : WDialect} {d q e : Option Char} (limit : Int) (hl : InLong limit)
    (H : RT wd (cfgOf d q e limit false)) (arg : DialectArg)
    (harg : makeSimpleDialect arg {} = .ok (dialectOf d q e false)) (rows : List (List Str))
    (hw : (wd.writeRows rows).2 = none) (hok : ∀ row ∈ rows, ∀ s ∈ row, CellOK wd s) :
    ((∀ row ∈ rows, (∀ s ∈ row, NUL ∉ s) ∧ ∀ p ∈ wd.rowFlags row, (room p.1 p.2 : Int) ≤ max limit 0) →
      readText limit arg {} (wd.writeRows rows).1 = .ok rows) ∧
    ((∀ row ∈ rows, ∀ s ∈ row, NUL ∉ s) →
      (∃ row ∈ rows, ∃ p ∈ wd.rowFlags row, max limit 0 < (room p.1 p.2 : Int)) →
      readText limit arg {} (wd.writeRows rows).1 = .error (.parse (.fieldLimit limit))) ∧
    ((∃ row ∈ rows, ∃ s ∈ row, NUL ∈ s) → ∃ err, readText limit arg {} (wd.writeRows rows).1 = .error err) := by
  rw [readText_of limit hl arg {} d q e false harg]
  have hrows : rows.map (fun row => (wd.rowFlags row).map (fun p => mkPlain p.1 p.2)) = rows := by
    simp only [rowFlags_fst, List.map_id']
  refine ⟨fun h => ?_, fun hn ⟨row, hr, p, hp, h⟩ => ?_, fun ⟨row, hr, s, hs, h⟩ => ?_⟩
  · rw [run_rows_fit H rows hw (fun row hr => (h row hr).1) hok (fun row hr => (h row hr).2), hrows]
    rfl
  · rw [run_rows_exact H rows hw hn hok
      (fun row => decide (∀ p ∈ wd.rowFlags row, (room p.1 p.2 : Int) ≤ max limit 0)) (fun row _ => by simp [cfgOf])]
    have hall : (rows.all fun row => decide (∀ p ∈ wd.rowFlags row, (room p.1 p.2 : Int) ≤ max limit 0)) = false := by
      rw [List.all_eq_false]
      refine ⟨row, hr, ?_⟩
      simp only [decide_eq_true_eq]
      intro h'
      have := h' p hp
      omega
    rw [hall]
    rfl
  · have hm := writeRows_mem hw hr hs h
    have := textRun_nul_error (cfg := cfgOf d q e limit false) (mk := mkPlain) hm PObj.init
    rw [← parseText_eq_textRun] at this
    generalize parseText (cfgOf d q e limit false) mkPlain (wd.writeRows rows).1 = r at this ⊢
    obtain ⟨a, b⟩ := r
    cases b with
    | none => exact absurd rfl this
    | some b => exact ⟨_, rfl⟩

/-- What a writer without quotes accepts is read back if and only if it is readable. -/
theorem unquoted_exact {wd : WDialect} {d q e : Option Char} (limit : Int) (hl : InLong limit)
    (H : RT wd (cfgOf d q e limit false)) (arg : DialectArg)
    (harg : makeSimpleDialect arg {} = .ok (dialectOf d q e false)) (hq : wd.quoting = .none) (rows : List (List Str))
    (hw : (wd.writeRows rows).2 = none) (hok : ∀ row ∈ rows, ∀ s ∈ row, CellOK wd s) :
    (readText limit arg {} (wd.writeRows rows).1 = .ok rows ↔ CanReadBackUnquoted limit rows) ∧
    (¬ CanReadBackUnquoted limit rows → ∃ err, readText limit arg {} (wd.writeRows rows).1 = .error err) := by
  obtain ⟨h1, h2, h3⟩ := read_exact limit hl H arg harg rows hw hok
  have hquo : ∀ s, wd.quotes s = false := by
    intro s
    rw [WDialect.quotes]
    split
    · rename_i x hx
      rw [writeChars_none hq s (x := x.1) (b := x.2) hx]
      simp [hq]
    · rfl
  have hrow : ∀ row ∈ rows, (∀ p ∈ wd.rowFlags row, (room p.1 p.2 : Int) ≤ max limit 0) ↔
      ∀ s ∈ row, s = [] ∨ (s.length : Int) ≤ limit := by
    intro row hr
    have hne : row ≠ [[]] := by
      rintro rfl
      have : ∀ rows : List (List Str), [[]] ∈ rows → (wd.writeRows rows).2 ≠ none := by
        intro rows
        induction rows with
        | nil => simp
        | cons r rs ih =>
          intro h
          simp only [WDialect.writeRows]
          rcases List.mem_cons.1 h with rfl | h
          · simp [WDialect.writeRow, WDialect.writeFields, WDialect.writeField, WDialect.writeChars, hq, bind,
              Except.bind, pure, Except.pure]
          · split
            · simp
            · exact ih h
      exact this rows hr hw
    simp only [WDialect.rowFlags, hne, if_false, List.mem_map, forall_exists_index, and_imp, forall_apply_eq_imp_iff₂,
      room, hquo, Bool.false_eq_true]
    refine forall_congr' fun s => forall_congr' fun _ => ?_
    rw [← List.length_eq_zero_iff]
    omega
  have herr : ¬ CanReadBackUnquoted limit rows →
      ∃ err, readText limit arg {} (wd.writeRows rows).1 = .error err := by
    intro h
    by_cases hn : ∀ row ∈ rows, ∀ s ∈ row, NUL ∉ s
    · refine ⟨_, h2 hn ?_⟩
      apply Classical.byContradiction
      intro hx
      refine h fun row hr s hs => ⟨hn row hr s hs, (hrow row hr).1 (fun p hp => ?_) s hs⟩
      apply Classical.byContradiction
      intro hp'
      exact hx ⟨row, hr, p, hp, by omega⟩
    · simp only [Classical.not_forall, Decidable.not_not] at hn
      obtain ⟨row, hr, s, hs, hn⟩ := hn
      exact h3 ⟨row, hr, s, hs, hn⟩
  refine ⟨⟨fun h => ?_, fun h => h1 fun row hr =>
    ⟨fun s hs => (h row hr s hs).1, (hrow row hr).2 fun s hs => (h row hr s hs).2⟩⟩, herr⟩
  apply Classical.byContradiction
  intro hx
  obtain ⟨err, he⟩ := herr hx
  rw [h] at he
  cases he

/-- Quotes of the writers with minimal quoting and doubled quotes. -/
theorem quotes_minimal {wd : WDialect} (hq : wd.quoting = .minimal) {q : Char} (hqc : wd.quotechar = some q)
    (hd : wd.doublequote = true)
    (hlt : ∀ c ∈ wd.lineterminator, c = '\r' ∨ c = '\n')
    (he : ∀ c, wd.escapechar = some c → isNL c = false ∧ c ≠ wd.delimiter ∧ c ≠ q) (s : Str) :
    wd.quotes s = true ↔ NeedsQuotes wd.delimiter q s := by
  have hc : ∀ c, ∃ x, wd.writeChar c = .ok (x, decide (c = wd.delimiter ∨ c = q ∨ c = '\r' ∨ c = '\n')) := by
    intro c
    by_cases hs : wd.special c = true
    · have hs' := hs
      simp only [WDialect.special, Bool.or_eq_true, decide_eq_true_eq, hqc, Option.some.injEq] at hs'
      by_cases h1 : q = c
      · exact ⟨[c, c], by simp [WDialect.writeChar, hs, hq, hqc, h1, hd]⟩
      · by_cases h2 : wd.escapechar = some c
        · obtain ⟨a1, a2, a3⟩ := he c h2
          simp only [isNL, Bool.or_eq_false_iff, decide_eq_false_iff_not] at a1
          exact ⟨[c, c], by simp [WDialect.writeChar, hs, hq, hqc, h1, h2, WDialect.escaped, Except.map, a1, a2, a3]⟩
        · refine ⟨[c], ?_⟩
          have : c = wd.delimiter ∨ c = q ∨ c = '\r' ∨ c = '\n' := by
            rcases hs' with ((((h | h) | h) | h) | h) | h
            · exact .inl h
            · exact absurd h h2
            · exact absurd h h1
            · exact .inr (.inr (.inr h))
            · exact .inr (.inr (.inl h))
            · rcases hlt c (by simpa using h) with h | h
              · exact .inr (.inr (.inl h))
              · exact .inr (.inr (.inr h))
          simp [WDialect.writeChar, hs, hq, hqc, h1, h2, this]
    · refine ⟨[c], ?_⟩
      have hs' : wd.special c = false := by simpa using hs
      have : ¬ (c = wd.delimiter ∨ c = q ∨ c = '\r' ∨ c = '\n') := by
        simp only [WDialect.special, Bool.or_eq_false_iff, decide_eq_false_iff_not, hqc, Option.some.injEq] at hs'
        rintro (h | h | h | h)
        · exact hs'.1.1.1.1.1 h
        · exact hs'.1.1.1.2 h.symm
        · exact hs'.1.2 h
        · exact hs'.1.1.2 h
      simp [WDialect.writeChar, hs', this]
  have hcs : ∀ s, ∃ x, wd.writeChars s = .ok (x, decide (NeedsQuotes wd.delimiter q s)) := by
    intro s
    induction s with
    | nil => exact ⟨[], by simp [WDialect.writeChars, NeedsQuotes]⟩
    | cons c s ih =>
      obtain ⟨x, hx⟩ := hc c
      obtain ⟨y, hy⟩ := ih
      refine ⟨x ++ y, ?_⟩
      simp [WDialect.writeChars, hx, hy, bind, Except.bind, pure, Except.pure, NeedsQuotes]
  obtain ⟨x, hx⟩ := hcs s
  simp [WDialect.quotes, hx, hq]

theorem room_cost {wd : WDialect} {q : Char} (h : ∀ s, wd.quotes s = true ↔ NeedsQuotes wd.delimiter q s)
    (limit : Int) (row : List Str) :
    (∀ p ∈ wd.rowFlags row, (room p.1 p.2 : Int) ≤ max limit 0) ↔
      ∀ s ∈ row, cellCost wd.delimiter q row s = 0 ∨ (cellCost wd.delimiter q row s : Int) ≤ limit := by
  have hk : ∀ n : Nat, (n : Int) ≤ max limit 0 ↔ n = 0 ∨ (n : Int) ≤ limit := by intro n; omega
  by_cases hr : row = [[]]
  · subst hr
    simp only [WDialect.rowFlags, if_true, List.mem_singleton, forall_eq, hk, cellCost, true_or, room]
  · simp only [WDialect.rowFlags, hr, if_false, List.mem_map, forall_exists_index, and_imp, forall_apply_eq_imp_iff₂,
      hk, cellCost, false_or, room, h]

/-- Reading back, from the facts about the writer. -/
theorem readable_iff {wd : WDialect} {d q : Char} {e : Option Char} (limit : Int) (hl : InLong limit)
    (H : RT wd (cfgOf (some d) (some q) e limit false)) (arg : DialectArg)
    (harg : makeSimpleDialect arg {} = .ok (dialectOf (some d) (some q) e false)) (hq : wd.quoting = .minimal)
    (rows : List (List Str)) (hw : (wd.writeRows rows).2 = none) :
    (readText limit arg {} (wd.writeRows rows).1 = .ok rows ↔ CanReadBack limit d q rows) ∧
    (¬ CanReadBack limit d q rows → ∃ err, readText limit arg {} (wd.writeRows rows).1 = .error err) ∧
    (¬ CanReadBack limit d q rows → (∀ row ∈ rows, ∀ s ∈ row, NUL ∉ s) →
      readText limit arg {} (wd.writeRows rows).1 = .error (.parse (.fieldLimit limit))) := by
  have hqn : wd.quoting ≠ .none := by rw [hq]; decide
  obtain ⟨h1, h2, h3⟩ := read_exact limit hl H arg harg rows hw (fun _ _ _ _ h => absurd h hqn)
  obtain ⟨a1, a2, a3, a4, a5, a6⟩ := H.quo hqn
  have hd : wd.delimiter = d := H.del.symm
  have hquo : ∀ s, wd.quotes s = true ↔ NeedsQuotes wd.delimiter q s := by
    refine quotes_minimal hq a1 a2 ?_ ?_
    · rcases H.lt with h | h <;> rw [h] <;> simp
    · intro c hc
      exact ⟨H.eNL c hc, H.eD c hc, fun h => a6 (by rw [hc, h]; rfl)⟩
  have hrow : ∀ row, _ := fun row => room_cost hquo limit row
  rw [hd] at hrow
  have hno : ¬ CanReadBack limit d q rows → (∀ row ∈ rows, ∀ s ∈ row, NUL ∉ s) →
      readText limit arg {} (wd.writeRows rows).1 = .error (.parse (.fieldLimit limit)) := by
    intro h hn
    refine h2 hn ?_
    apply Classical.byContradiction
    intro hx
    refine h fun row hr s hs => ⟨hn row hr s hs, (hrow row).1 (fun p hp => ?_) s hs⟩
    apply Classical.byContradiction
    intro hp'
    exact hx ⟨row, hr, p, hp, by omega⟩
  have herr : ¬ CanReadBack limit d q rows → ∃ err, readText limit arg {} (wd.writeRows rows).1 = .error err := by
    intro h
    by_cases hn : ∀ row ∈ rows, ∀ s ∈ row, NUL ∉ s
    · exact ⟨_, hno h hn⟩
    · simp only [Classical.not_forall, Decidable.not_not] at hn
      obtain ⟨row, hr, s, hs, hn⟩ := hn
      exact h3 ⟨row, hr, s, hs, hn⟩
  refine ⟨⟨fun h => ?_, fun h => h1 fun row hr => ⟨fun s hs => (h row hr s hs).1, (hrow row).2 fun s hs => (h row hr s hs).2⟩⟩,
    herr, hno⟩
  apply Classical.byContradiction
  intro hx
  obtain ⟨err, he⟩ := herr hx
  rw [h] at he
  cases he

theorem excel_exact (limit : Int) (hl : InLong limit) (rows : List (List Str)) :
    (readText limit (.name "excel") {} (excelWriter.writeRows rows).1 = .ok rows ↔ CanReadBack limit ',' '"' rows) ∧
    (¬ CanReadBack limit ',' '"' rows →
      ∃ err, readText limit (.name "excel") {} (excelWriter.writeRows rows).1 = .error err) ∧
    (¬ CanReadBack limit ',' '"' rows → (∀ row ∈ rows, ∀ s ∈ row, NUL ∉ s) →
      readText limit (.name "excel") {} (excelWriter.writeRows rows).1 = .error (.parse (.fieldLimit limit))) :=
  readable_iff limit hl (by constructor <;> simp [excelWriter, cfgOf, isNL, NUL]) _ makeSimpleDialect_excel rfl rows
    (writeRows_ok (by decide) rfl rows)

end Clever
