import Verif.Spec.Header
import Verif.Proofs.Reader

/-!
# `has_header` computes its specification
-/

namespace Clever

/-- The entry of `columnTypes` for a column with the given cells; `none` if it has been deleted. -/
def colState (casts : Casts) : List Str → Option (Option ColType)
  | [] => some none
  | c :: cs => if cs.all (fun x => cellType casts x = cellType casts c) then some (some (cellType casts c))
    else none

/-- One step of the update of an entry. -/
def colStep (casts : Casts) (ct : Option ColType) (cell : Str) : Option (Option ColType) :=
  if some (cellType casts cell) ≠ ct then
    if ct = none then some (some (cellType casts cell)) else none
  else some ct

theorem colState_snoc (casts : Casts) (cells : List Str) (c : Str) :
    colState casts (cells ++ [c]) = (colState casts cells).bind (colStep casts · c) := by
  cases cells with
  | nil => simp [colState, colStep]
  | cons a l =>
    simp only [List.cons_append, colState, List.all_append, List.all_cons, List.all_nil, Bool.and_true]
    cases h : l.all (fun x => decide (cellType casts x = cellType casts a)) with
    | false => simp
    | true =>
      by_cases hc : cellType casts c = cellType casts a
      · simp [colStep, hc]
      · simp [colStep, hc]

/-- The cells of a column. -/
def colCells (columns : Nat) (rows : List (List Str)) (i : Nat) : List Str :=
  (rows.filter (fun r => r.length = columns)).map (fun r => r.getD i [])

/-- `columnTypes` after some rows. -/
def typesOf (casts : Casts) (columns : Nat) (rows : List (List Str)) : ColumnTypes :=
  (List.range columns).filterMap fun i => (colState casts (colCells columns rows i)).map (i, ·)

theorem typesOf_nil (casts : Casts) (columns : Nat) : typesOf casts columns [] = initTypes columns := by
  simp [typesOf, initTypes, colCells, colState, List.filterMap_eq_map']

theorem typesOf_irregular (casts : Casts) {columns : Nat} (rows : List (List Str)) {row : List Str}
    (h : row.length ≠ columns) : typesOf casts columns (rows ++ [row]) = typesOf casts columns rows := by
  simp [typesOf, colCells, h]

theorem updateTypes_filterMap (casts : Casts) (row : List Str) (f : Nat → Option (Option ColType)) :
    ∀ l : List Nat, (∀ i ∈ l, i < row.length) →
    updateTypes casts row (l.filterMap fun i => (f i).map (i, ·)) =
      .ok (l.filterMap fun i => ((f i).bind (colStep casts · (row.getD i []))).map (i, ·))
  | [], _ => rfl
  | i :: l, h => by
    have ih := updateTypes_filterMap casts row f l (fun j hj => h j (List.mem_cons_of_mem _ hj))
    have hi := h i (by simp)
    cases hf : f i with
    | none => simp only [List.filterMap_cons, hf, Option.map_none, Option.bind_none, ih]
    | some ct =>
      simp only [List.filterMap_cons, hf, Option.map_some, Option.bind_some, updateTypes]
      rw [List.getElem?_eq_getElem hi]
      simp only [ih, bind, Except.bind, pure, Except.pure, colStep]
      have hg : row.getD i [] = row[i] := by simp [hi]
      rw [hg]
      split
      · split <;> simp
      · simp

theorem updateTypes_typesOf (casts : Casts) (columns : Nat) (rows : List (List Str)) {row : List Str}
    (h : row.length = columns) :
    updateTypes casts row (typesOf casts columns rows) = .ok (typesOf casts columns (rows ++ [row])) := by
  unfold typesOf
  rw [updateTypes_filterMap _ _ _ _ (by intro i hi; rw [h]; exact List.mem_range.mp hi)]
  congr 1
  apply List.filterMap_congr
  intro i _
  congr 1
  rw [← colState_snoc]
  simp [colCells, h]

theorem headerLoop_eq (casts : Casts) (limit maxRows : Int) (cfg : Cfg) (d : SimpleDialect) (columns : Nat) :
    ∀ (n : Nat) (items own : List Item) (k : Nat) (checked : Int) (seen : List (List Str)),
    headerLoop casts limit maxRows columns n ⟨.stream items, d, k, some ⟨cfg, own⟩⟩ checked
      (typesOf casts columns seen) =
    match (parseRowsAux cfg mkPlain n items).2 with
    | none => .ok (typesOf casts columns (seen ++
        (parseRowsAux cfg mkPlain n items).1.take (maxRows + 1 - checked).toNat))
    | some e => if (parseRowsAux cfg mkPlain n items).1.length ≤ (maxRows + 1 - checked).toNat then
        .error (.parse e) else .ok (typesOf casts columns (seen ++
        (parseRowsAux cfg mkPlain n items).1.take (maxRows + 1 - checked).toNat)) := by
  intro n
  induction n with
  | zero => intros; simp [headerLoop, parseRowsAux]
  | succ n ih =>
    intro items own k checked seen
    rw [headerLoop, parseRowsAux]
    simp only [Reader.next, Reader.nextGen]
    rcases h : nextRow cfg mkPlain items with ⟨out, rest⟩
    cases out with
    | stop => simp
    | error e => simp
    | row r =>
      simp only
      by_cases hc : checked > maxRows
      · rw [if_pos hc]
        have h0 : (maxRows + 1 - checked).toNat = 0 := by omega
        rw [h0]
        cases (parseRowsAux cfg mkPlain n rest).2 <;> simp
      · rw [if_neg hc]
        have h1 : (maxRows + 1 - checked).toNat = (maxRows + 1 - (checked + 1)).toNat + 1 := by omega
        rw [h1]
        have key : ∀ s', typesOf casts columns s' = typesOf casts columns (seen ++ [r]) →
            headerLoop casts limit maxRows columns n ⟨.stream rest, d, k + 1, some ⟨cfg, own⟩⟩ (checked + 1)
              (typesOf casts columns s') =
            match (parseRowsAux cfg mkPlain n rest).2 with
            | none => .ok (typesOf casts columns (seen ++ (r :: (parseRowsAux cfg mkPlain n rest).1).take
                ((maxRows + 1 - (checked + 1)).toNat + 1)))
            | some e => if (r :: (parseRowsAux cfg mkPlain n rest).1).length ≤
                  (maxRows + 1 - (checked + 1)).toNat + 1 then
                .error (.parse e) else .ok (typesOf casts columns (seen ++
                  (r :: (parseRowsAux cfg mkPlain n rest).1).take
                    ((maxRows + 1 - (checked + 1)).toNat + 1))) := by
          intro s' hs'
          rw [hs', ih]
          simp [List.take_succ_cons, List.append_assoc]
        split
        · rename_i hr
          exact key seen (typesOf_irregular casts seen hr).symm
        · rename_i hr
          rw [updateTypes_typesOf casts columns seen (by simpa using hr)]
          exact key _ rfl

/-! ## The votes -/

/-- The vote of an entry of `columnTypes`. -/
def entryVote (casts : Casts) (cell : Str) : Option ColType → Int
  | none => 1
  | some (.len n) => if cell.length ≠ n then 1 else -1
  | some t => if t.castable casts cell then -1 else 1

theorem vote_filterMap (casts : Casts) (header : List Str) (f : Nat → Option (Option ColType)) :
    ∀ (l : List Nat) (v : Int), (∀ i ∈ l, i < header.length) →
    vote casts header (l.filterMap fun i => (f i).map (i, ·)) v =
      .ok (v + (l.map fun i => match f i with
        | none => 0
        | some ct => entryVote casts (header.getD i []) ct).sum)
  | [], v, _ => by simp [vote]
  | i :: l, v, h => by
    have ih := fun v => vote_filterMap casts header f l v (fun j hj => h j (List.mem_cons_of_mem _ hj))
    have hi := h i (by simp)
    have hg : header.getD i [] = header[i] := by simp [hi]
    have he := List.getElem?_eq_getElem hi
    cases hf : f i with
    | none => simp only [List.filterMap_cons, hf, Option.map_none, ih, List.map_cons, List.sum_cons, Int.zero_add]
    | some ct =>
      simp only [List.filterMap_cons, hf, Option.map_some, List.map_cons, List.sum_cons]
      rw [hg]
      cases ct with
      | none => rw [vote, ih]; simp only [entryVote]; congr 1; omega
      | some t =>
        cases t with
        | len n =>
          rw [vote, he]
          simp only [ih, entryVote]
          congr 1
          split <;> omega
        | _ =>
          rw [vote, he]
          · simp only [ih, entryVote]
            congr 1
            split <;> omega
          · intro n hn
            simp at hn

theorem cellType_alike (casts : Casts) (a b : Str) :
    (decide (cellType casts b = cellType casts a)) = Spec.alike casts a b := by
  unfold cellType Spec.alike Spec.kind
  cases casts.int a <;> cases casts.int b <;> cases casts.float a <;> cases casts.float b <;>
    cases casts.complex a <;> cases casts.complex b <;> simp [eq_comm]

theorem entryVote_fits (casts : Casts) (h c : Str) :
    entryVote casts h (some (cellType casts c)) = if Spec.headerFits casts h c then -1 else 1 := by
  unfold cellType Spec.headerFits Spec.kind
  cases hi : casts.int c
  · cases hf : casts.float c
    · cases hc : casts.complex c
      · by_cases hl : h.length = c.length <;> simp [entryVote, hl]
      · cases hh : casts.complex h <;> simp [entryVote, ColType.castable, hh]
    · cases hh : casts.float h <;> simp [entryVote, ColType.castable, hh]
  · cases hh : casts.int h <;> simp [entryVote, ColType.castable, hh]

theorem columnVote_eq (casts : Casts) (h : Str) (cells : List Str) :
    (match colState casts cells with
      | none => 0
      | some ct => entryVote casts h ct) = Spec.columnVote casts h cells := by
  cases cells with
  | nil => rfl
  | cons c cs =>
    simp only [colState, Spec.columnVote, cellType_alike]
    cases cs.all (Spec.alike casts c) with
    | true => exact entryVote_fits casts h c
    | false => rfl

theorem vote_typesOf (casts : Casts) (header : List Str) (rows : List (List Str)) :
    vote casts header (typesOf casts header.length rows) 0 = .ok (Spec.votes casts header rows) := by
  unfold typesOf
  rw [vote_filterMap _ _ _ _ _ (fun i hi => List.mem_range.mp hi)]
  simp only [columnVote_eq, Int.zero_add]
  rfl

/-- `has_header` from the rows that its reader delivers. -/
theorem hasHeaderWith_eq (casts : Casts) {limit : Int} {d : SimpleDialect} {cfg : Cfg}
    (hv : d.validate = .ok ()) (hcfg : d.cfg limit = .ok cfg) (sample : Str) (maxRows : Int) :
    hasHeaderWith casts limit d sample maxRows =
      Spec.hasHeader casts maxRows (parseRows cfg mkPlain (strItems (linesLF sample))).1
        ((parseRows cfg mkPlain (strItems (linesLF sample))).2.map PyExc.parse) := by
  have hm : mkReader (.stream (strItems (linesLF sample))) (.simple d) {} =
      .ok ⟨.stream (strItems (linesLF sample)), d, 0, none⟩ := by
    simp only [mkReader, makeSimpleDialect, baseDialect, setParams_none, bind, Except.bind, hv, pure,
      Except.pure]
  unfold hasHeaderWith
  rw [hm, parseRows_eq]
  generalize strItems (linesLF sample) = items
  simp only [bind, Except.bind, Reader.next, Reader.iter, hcfg, pure, Except.pure, Reader.nextGen]
  rcases h : nextRow cfg mkPlain items with ⟨out, rest⟩
  cases out with
  | stop => simp [Spec.hasHeader]
  | error e => simp [Spec.hasHeader]
  | row header =>
    simp only [hcfg]
    rw [← typesOf_nil, headerLoop_eq]
    simp only [Source.items, List.nil_append, Int.sub_zero]
    rw [show parseRowsAux cfg mkPlain (rest.length + 1) rest = parseRows cfg mkPlain rest from rfl]
    cases (parseRows cfg mkPlain rest).2 with
    | none => simp [Spec.hasHeader, vote_typesOf, Spec.window]
    | some e =>
      simp only [Option.map_some, Spec.hasHeader]
      rw [show (maxRows + 1).toNat = Spec.window maxRows from rfl]
      by_cases hlen : (parseRows cfg mkPlain rest).1.length ≤ Spec.window maxRows
      · rw [if_pos hlen, if_pos hlen]
      · rw [if_neg hlen, if_neg hlen]
        simp [vote_typesOf]

/-! ## Lines -/

/-- Every carriage return is followed by a line feed. -/
def NoLoneCR (t : Str) : Prop := ∀ u v, t = u ++ '\r' :: v → v.head? = some '\n'

theorem NoLoneCR.tail {c : Char} {t : Str} (h : NoLoneCR (c :: t)) : NoLoneCR t := by
  intro u v e
  exact h (c :: u) v (by simp [e])

theorem linesLF_eq : ∀ {t : Str}, NoLoneCR t → linesLF t = linesUniv t
  | [], _ => rfl
  | c :: t, h => by
    rw [linesLF, linesUniv, linesLF_eq h.tail]
    have hc : lineEndAfter c t = decide (c = '\n') := by
      unfold lineEndAfter
      by_cases hr : c = '\r'
      · subst hr
        simp [h [] t rfl]
      · simp [hr]
    rw [hc]
    simp

theorem linesLF_eq_nil (t : Str) : linesLF t = [] ↔ t = [] := by
  cases t with
  | nil => simp [linesLF]
  | cons c t =>
    rw [linesLF]
    split
    · simp
    · cases linesLF t <;> simp

theorem linesLF_getLast : ∀ {t l : Str}, (linesLF t).getLast? = some l → l.getLast? = t.getLast?
  | [], l, h => by simp [linesLF] at h
  | c :: t, l, h => by
    rw [linesLF] at h
    cases ht : linesLF t with
    | nil =>
      rw [ht] at h
      rw [(linesLF_eq_nil t).mp ht]
      split at h <;> simp at h <;> simp [← h]
    | cons x ls =>
      have hne : t ≠ [] := by rintro rfl; simp [linesLF] at ht
      have ih := fun l h => linesLF_getLast (t := t) (l := l) h
      rw [ht] at h ih
      have hct : (c :: t).getLast? = t.getLast? := by
        cases t with
        | nil => exact absurd rfl hne
        | cons a b => rw [List.getLast?_cons_cons]
      rw [hct]
      split at h
      · rw [List.getLast?_cons_cons] at h
        exact ih l h
      · cases ls with
        | nil =>
          simp only [List.getLast?_singleton, Option.some.injEq] at h
          have := ih x (by simp)
          rw [← h, ← this]
          cases x with
          | nil =>
            rw [List.getLast?_nil] at this
            rw [eq_comm, List.getLast?_eq_none_iff] at this
            exact absurd this hne
          | cons a b => rw [List.getLast?_cons_cons]
        | cons y ls =>
          rw [List.getLast?_cons_cons] at h
          exact ih l (by rw [List.getLast?_cons_cons]; exact h)

theorem linesLF_head : ∀ {u : Str} (t : Str), '\n' ∉ u → t ≠ [] →
    ∃ w ls, linesLF (u ++ t) = (u ++ w) :: ls ∧ (linesLF t).head? = some w
  | [], t, _, ht => by
    cases h : linesLF t with
    | nil => exact absurd ((linesLF_eq_nil t).mp h) ht
    | cons w ls => exact ⟨w, ls, by simp [h], rfl⟩
  | c :: u, t, hu, ht => by
    simp only [List.mem_cons, not_or] at hu
    obtain ⟨w, ls, h1, h2⟩ := linesLF_head t hu.2 ht
    refine ⟨w, ls, ?_, h2⟩
    rw [List.cons_append, linesLF, if_neg (Ne.symm hu.1), h1]
    rfl

/-- A parser without quotechar and escapechar that meets a carriage return in the middle of a line. -/
theorem feedLine_lone_cr {α : Type} {cfg : Cfg} (hq : cfg.quotechar = NUL) (he : cfg.escapechar = NUL)
    (mk : Str → Bool → α) {c : Char} {w : Str} (hc : isNL c = false) :
    ∀ (u : Str) (o : PObj α), NUL ∉ u ++ '\r' :: c :: w →
    (o.state = .startRecord ∨ o.state = .startField ∨ o.state = .inField ∨ o.state = .eatCRNL) →
    (o.field.length + (u.length + 2) : Int) ≤ cfg.fieldLimit →
    feedLine cfg mk o (u ++ '\r' :: c :: w) = .error .newlineInUnquoted := by
  have step : ∀ (x v : Char) (o : PObj α), x ≠ NUL →
      (o.state = .startRecord ∨ o.state = .startField ∨ o.state = .inField ∨ o.state = .eatCRNL) →
      (o.field.length : Int) < cfg.fieldLimit →
      processChar cfg mk o x v = .error .newlineInUnquoted ∨
      ∃ o', processChar cfg mk o x v = .ok o' ∧ o'.field.length ≤ o.field.length + 1 ∧
        (isNL x = true → o'.state = .eatCRNL) ∧
        (o'.state = .startRecord ∨ o'.state = .startField ∨ o'.state = .inField ∨ o'.state = .eatCRNL) := by
    intro x v o hx hs hl
    have hadd : ∀ o1 : PObj α, o1.field = o.field → addChar cfg o1 x = .ok { o1 with field := o1.field ++ [x] } := by
      intro o1 h1
      rw [addChar, if_neg (by rw [h1]; omega)]
    rcases hs with hs | hs | hs | hs
    · right
      rw [processChar, hs]
      simp only [hx, if_false]
      cases hn : isNL x with
      | true => exact ⟨_, rfl, by simp [PObj.to], fun _ => rfl, .inr (.inr (.inr rfl))⟩
      | false =>
        simp only [Bool.false_eq_true, if_false, stepStartField, hn, hx, decide_false, Bool.or_self, hq, he]
        split
        · exact ⟨_, rfl, by simp [PObj.to, saveField], by simp, .inr (.inl rfl)⟩
        · rw [hadd (o.to .startField) rfl]
          exact ⟨_, rfl, by simp [PObj.to], by simp, .inr (.inr (.inl rfl))⟩
    · right
      rw [processChar, hs]
      cases hn : isNL x with
      | true =>
        simp only [stepStartField, hn, Bool.true_or, if_true, hx, if_false]
        exact ⟨_, rfl, by simp [PObj.to, saveField], fun _ => rfl, .inr (.inr (.inr rfl))⟩
      | false =>
        simp only [stepStartField, hn, hx, decide_false, Bool.or_self, Bool.false_eq_true, if_false, hq, he]
        split
        · exact ⟨_, rfl, by simp [saveField], by simp, .inr (.inl (by simp [saveField, hs]))⟩
        · rw [hadd _ rfl]
          exact ⟨_, rfl, by simp [PObj.to], by simp, .inr (.inr (.inl rfl))⟩
    · right
      rw [processChar, hs]
      cases hn : isNL x with
      | true =>
        simp only [stepInField, hn, Bool.true_or, if_true, hx, if_false]
        exact ⟨_, rfl, by simp [PObj.to, saveField], fun _ => rfl, .inr (.inr (.inr rfl))⟩
      | false =>
        simp only [stepInField, hn, hx, decide_false, Bool.or_self, Bool.false_eq_true, if_false, hq, he]
        split
        · exact ⟨_, rfl, by simp [PObj.to, saveField], by simp, .inr (.inl rfl)⟩
        · rw [hadd _ rfl]
          exact ⟨_, rfl, by simp, by simp, .inr (.inr (.inl hs))⟩
    · rw [processChar, hs]
      cases hn : isNL x with
      | true => exact .inr ⟨_, rfl, by simp, fun _ => hs, .inr (.inr (.inr hs))⟩
      | false => simp [hx]
  intro u
  induction u with
  | nil =>
    intro o hn hs hl
    simp only [List.nil_append, List.mem_cons, not_or] at hn
    rw [List.nil_append, feedLine, if_neg (Ne.symm hn.1)]
    rcases step '\r' ((c :: w).headD NUL) o (Ne.symm hn.1) hs (by simp at hl; omega) with h | ⟨o', h, -, h2, -⟩
    · rw [h]
    · rw [h]
      simp only
      rw [feedLine, if_neg (Ne.symm hn.2.1)]
      have : processChar cfg mk o' c (w.headD NUL) = .error .newlineInUnquoted := by
        rw [processChar, h2 (by decide)]
        simp [hc, Ne.symm hn.2.1]
      rw [this]
  | cons x u ih =>
    intro o hn hs hl
    simp only [List.cons_append, List.mem_cons, not_or] at hn
    rw [List.cons_append, feedLine, if_neg (Ne.symm hn.1)]
    rcases step x ((u ++ '\r' :: c :: w).headD NUL) o (Ne.symm hn.1) hs (by simp at hl; omega) with
      h | ⟨o', h, h1, -, h3⟩
    · rw [h]
    · rw [h]
      simp only
      exact ih o' (by simpa using hn.2) h3 (by simp at hl; omega)

end Clever
