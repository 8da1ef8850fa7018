import Verif.Props.Header
import Verif.Props.QuotedTables

/-!
# C113: header detection on tables
-/

namespace Clever.Props

open Clever Clever.Spec

/-! ## Line ends -/

theorem NoLoneCR.of_not_mem {t : Str} (h : '\r' ∉ t) : NoLoneCR t := by
  intro u v ht
  exact absurd (ht ▸ List.mem_append_right u List.mem_cons_self) h

theorem NoLoneCR.append {a b : Str} (ha : '\r' ∉ a) (hb : NoLoneCR b) : NoLoneCR (a ++ b) := by
  induction a with
  | nil => exact hb
  | cons c a ih =>
    intro u v ht
    cases u with
    | nil =>
      simp only [List.cons_append, List.nil_append, List.cons.injEq] at ht
      exact absurd (ht.1 ▸ List.mem_cons_self) ha
    | cons x u =>
      simp only [List.cons_append, List.cons.injEq] at ht
      exact ih (fun h => ha (List.mem_cons_of_mem _ h)) u v ht.2

theorem NoLoneCR.crlf {t : Str} (h : NoLoneCR t) : NoLoneCR ('\r' :: '\n' :: t) := by
  intro u v ht
  match u with
  | [] =>
    simp only [List.nil_append, List.cons.injEq, true_and] at ht
    rw [← ht]; rfl
  | [x] =>
    simp only [List.cons_append, List.nil_append, List.cons.injEq] at ht
    exact absurd ht.2.1 (by decide)
  | x :: y :: u =>
    simp only [List.cons_append, List.cons.injEq] at ht
    exact h u v ht.2.2

theorem NoLoneCR.dropEnd {t nl : Str} (hnl : nl = ['\n'] ∨ nl = ['\r', '\n']) (h : NoLoneCR (t ++ nl))
    (h1 : nl = ['\n'] → '\r' ∉ t) : NoLoneCR t := by
  rcases hnl with rfl | rfl
  · exact NoLoneCR.of_not_mem (h1 rfl)
  · intro u v ht
    have := h u (v ++ ['\r', '\n']) (by rw [ht]; simp)
    cases v with
    | nil => exact absurd this (by decide)
    | cons c v => exact this

theorem noLoneCR_table {T : List (List Str)} (h : ∀ r ∈ T, ∀ s ∈ r, '\r' ∉ s) {d : Char} (hd : d ≠ '\r') {nl : Str}
    (hnl : nl = ['\n'] ∨ nl = ['\r', '\n']) : NoLoneCR (tableText d nl T) ∧ (nl = ['\n'] → '\r' ∉ tableText d nl T) := by
  have hj : ∀ r : List Str, (∀ s ∈ r, '\r' ∉ s) → '\r' ∉ joinWith d r := by
    intro r
    induction r with
    | nil => intro _; simp [joinWith]
    | cons x t ih =>
      intro hr
      cases t with
      | nil => exact hr x List.mem_cons_self
      | cons y t =>
        simp only [joinWith, List.mem_append, List.mem_cons, not_or]
        exact ⟨hr x List.mem_cons_self, Ne.symm hd, ih (fun s hs => hr s (List.mem_cons_of_mem _ hs))⟩
  induction T with
  | nil => exact ⟨NoLoneCR.of_not_mem (by simp [tableText]), fun _ => by simp [tableText]⟩
  | cons r T ih =>
    obtain ⟨i1, i2⟩ := ih (fun r' hr' => h r' (List.mem_cons_of_mem _ hr'))
    have hr := hj r (h r List.mem_cons_self)
    have e : tableText d nl (r :: T) = joinWith d r ++ (nl ++ tableText d nl T) := by simp [tableText]
    rw [e]
    constructor
    · refine NoLoneCR.append hr ?_
      rcases hnl with rfl | rfl
      · exact NoLoneCR.append (a := ['\n']) (by decide) i1
      · exact NoLoneCR.crlf i1
    · rintro rfl
      simp only [List.mem_append, not_or]
      exact ⟨hr, by decide, i2 rfl⟩

/-! ## The votes -/

theorem alike_iff (casts : Casts) (a b : Str) : alike casts a b = true ↔
    kind casts a = kind casts b ∧ (kind casts a = 3 → a.length = b.length) := by
  simp only [alike, Bool.and_eq_true, decide_eq_true_eq, Bool.or_eq_true, ne_eq]
  by_cases h : kind casts a = 3 <;> simp [h]

theorem kind_le (casts : Casts) (a : Str) : kind casts a ≤ 3 := by
  unfold kind
  repeat' split
  all_goals omega

theorem alike_symm {casts : Casts} {a b : Str} (h : alike casts a b = true) : alike casts b a = true := by
  rw [alike_iff] at *
  exact ⟨h.1.symm, fun h3 => (h.2 (h.1.trans h3)).symm⟩

theorem alike_trans {casts : Casts} {a b c : Str} (h : alike casts a b = true) (h' : alike casts b c = true) :
    alike casts a c = true := by
  rw [alike_iff] at *
  exact ⟨h.1.trans h'.1, fun h3 => (h.2 h3).trans (h'.2 (h.1 ▸ h3))⟩

theorem headerFits_alike {casts : Casts} {a b : Str} (h : alike casts a b = true) (x : Str) :
    headerFits casts x a = headerFits casts x b := by
  rw [alike_iff] at h
  unfold headerFits
  rw [h.1]
  split
  · rfl
  split
  · rfl
  split
  · rfl
  · have : kind casts a = 3 := by
      have := kind_le casts a
      have := h.1
      omega
    rw [h.2 this]

theorem kind_alike (casts : Casts) (a : Str) : alike casts a a = true := by
  rw [alike_iff]; exact ⟨rfl, fun _ => rfl⟩

/-- The vote of a column does not depend on the order of its cells. -/
theorem columnVote_perm {casts : Casts} (x : Str) {l l' : List Str} (h : l.Perm l') :
    columnVote casts x l = columnVote casts x l' := by
  have key : ∀ {l l' : List Str}, l.Perm l' → ∀ c cs c' cs', l = c :: cs → l' = c' :: cs' →
      cs.all (alike casts c) = true → cs'.all (alike casts c') = true ∧ alike casts c c' = true := by
    intro l l' h c cs c' cs' e e' ha
    have hall : ∀ y ∈ l, alike casts c y = true := by
      intro y hy
      rw [e] at hy
      rcases List.mem_cons.1 hy with rfl | hy
      · exact kind_alike casts _
      · exact List.all_eq_true.1 ha y hy
    have hc' : alike casts c c' = true := hall c' (h.mem_iff.2 (e' ▸ List.mem_cons_self))
    refine ⟨List.all_eq_true.2 fun y hy => ?_, hc'⟩
    exact alike_trans (alike_symm hc') (hall y (h.mem_iff.2 (e' ▸ List.mem_cons_of_mem _ hy)))
  cases l with
  | nil => rw [h.nil_eq]
  | cons c cs =>
    cases l' with
    | nil => exact absurd h.symm.nil_eq (by simp)
    | cons c' cs' =>
      simp only [columnVote]
      by_cases ha : cs.all (alike casts c) = true
      · obtain ⟨h1, h2⟩ := key h c cs c' cs' rfl rfl ha
        rw [if_pos ha, if_pos h1, headerFits_alike h2]
      · have hb : ¬ cs'.all (alike casts c') = true := fun hb => ha (key h.symm c' cs' c cs rfl rfl hb).1
        rw [if_neg ha, if_neg hb]

/-- The row with the cells in the order given by the indices. -/
def reorder (is : List Nat) (r : List Str) : List Str := is.map fun i => r.getD i []

theorem votes_reorder (casts : Casts) (header : List Str) (rows : List (List Str)) (is : List Nat)
    (hp : is.Perm (List.range header.length)) (hr : ∀ r ∈ rows, r.length = header.length) :
    votes casts (reorder is header) (rows.map (reorder is)) = votes casts header rows := by
  have hlen : is.length = header.length := by rw [hp.length_eq]; simp
  have hf1 : rows.filter (fun r => decide (r.length = header.length)) = rows :=
    List.filter_eq_self.2 fun r h => by simpa using hr r h
  have hf2 : (rows.map (reorder is)).filter (fun r => decide (r.length = (reorder is header).length)) =
      rows.map (reorder is) :=
    List.filter_eq_self.2 fun r h => by
      obtain ⟨r0, -, rfl⟩ := List.mem_map.1 h
      simp [reorder]
  unfold votes
  rw [hf1, hf2]
  have h1 : (reorder is header).length = is.length := by simp [reorder]
  rw [h1, ← ((hp.map _).sum_eq : _)]
  congr 1
  apply List.ext_getElem
  · simp
  · intro k hk hk'
    have hk0 : k < is.length := by simpa using hk
    have hget : ∀ r : List Str, (reorder is r).getD k [] = r.getD is[k] [] := by
      intro r
      simp [reorder, List.getD_eq_getElem?_getD, hk0]
    simp only [List.getElem_map, List.getElem_range, List.map_map, hget]
    congr 1
    apply List.map_congr_left
    intro r _
    simp only [Function.comp_apply, hget]

/-- **C113**: the rows after the header may be permuted, within the rows that are looked at. -/
theorem C113_row_order (casts : Casts) (maxRows : Int) (header : List Str) (body body' : List (List Str))
    (hp : body.Perm body') (hw : body.length ≤ window maxRows) :
    Spec.hasHeader casts maxRows (header :: body) none = Spec.hasHeader casts maxRows (header :: body') none := by
  simp only [Spec.hasHeader]
  rw [List.take_of_length_le hw, List.take_of_length_le (hp.length_eq ▸ hw)]
  congr 3
  unfold votes
  congr 1
  apply List.map_congr_left
  intro i _
  exact columnVote_perm _ ((hp.filter _).map _)

/-- **C113**: the columns may be permuted. -/
theorem C113_column_order (casts : Casts) (maxRows : Int) (header : List Str) (body : List (List Str)) (is : List Nat)
    (hp : is.Perm (List.range header.length)) (hr : ∀ r ∈ body, r.length = header.length) :
    Spec.hasHeader casts maxRows ((header :: body).map (reorder is)) none =
      Spec.hasHeader casts maxRows (header :: body) none := by
  simp only [List.map_cons, Spec.hasHeader, ← List.map_take]
  rw [votes_reorder casts header _ is hp (fun r h => hr r (List.mem_of_mem_take h))]

theorem sum_const {f : Nat → Int} {c : Int} {n : Nat} (h : ∀ i < n, f i = c) : ((List.range n).map f).sum = n * c := by
  have : (List.range n).map f = List.replicate n c := by
    rw [List.eq_replicate_iff]
    refine ⟨by simp, fun b hb => ?_⟩
    obtain ⟨i, hi, rfl⟩ := List.mem_map.1 hb
    exact h i (List.mem_range.1 hi)
  rw [this, List.sum_replicate]
  simp

/-- **C113**: a table of one row has a header, since every column votes for one. -/
theorem C113_single_row (casts : Casts) (maxRows : Int) (r : List Str) (hr : r ≠ []) :
    Spec.hasHeader casts maxRows [r] none = .ok true := by
  have : 0 < r.length := List.length_pos_iff.2 hr
  simp only [Spec.hasHeader, List.take_nil, Except.ok.injEq, decide_eq_true_eq]
  have hv : votes casts r [] = r.length * 1 := sum_const (fun i _ => rfl)
  rw [hv]
  omega

theorem columnVote_ints {casts : Casts} {x : Str} {cells : List Str} (h : ∀ c ∈ cells, casts.int c = true)
    (hne : cells ≠ []) : columnVote casts x cells = if casts.int x then -1 else 1 := by
  have hk : ∀ c ∈ cells, kind casts c = 0 := fun c hc => by simp [kind, h c hc]
  cases cells with
  | nil => exact absurd rfl hne
  | cons c cs =>
    have hc := hk c List.mem_cons_self
    simp only [columnVote]
    rw [if_pos]
    · simp [headerFits, hc]
    · refine List.all_eq_true.2 fun y hy => ?_
      rw [alike_iff, hc, hk y (List.mem_cons_of_mem _ hy)]
      exact ⟨rfl, fun h => absurd h (by decide)⟩

/-- **C113**: a rectangular table of integers, below a first row: it is a header if most of its cells are not integers. -/
theorem C113_integers (casts : Casts) (maxRows : Int) (h0 : 0 ≤ maxRows) (header : List Str) (body : List (List Str))
    (hne : body ≠ []) (hr : ∀ r ∈ body, r.length = header.length) (hi : ∀ r ∈ body, ∀ s ∈ r, casts.int s = true) :
    Spec.hasHeader casts maxRows (header :: body) none =
      .ok (decide (header.countP (fun s => casts.int s) < header.countP (fun s => !casts.int s))) := by
  simp only [Spec.hasHeader, Except.ok.injEq]
  have hw : 0 < window maxRows := by unfold window; omega
  have hb : ∀ r ∈ body.take (window maxRows), r.length = header.length := fun r h => hr r (List.mem_of_mem_take h)
  have hv : votes casts header (body.take (window maxRows)) = (header.map fun s => if casts.int s then (-1 : Int) else 1).sum := by
    unfold votes
    rw [List.filter_eq_self.2 (fun r h => by simpa using hb r h)]
    congr 1
    apply List.ext_getElem
    · simp
    · intro k hk hk'
      have hk0 : k < header.length := by simpa using hk
      simp only [List.getElem_map, List.getElem_range]
      rw [columnVote_ints]
      · simp [List.getD_eq_getElem?_getD, hk0]
      · intro c hc
        obtain ⟨r, hr', rfl⟩ := List.mem_map.1 hc
        have hl := hb r hr'
        rw [List.getD_eq_getElem?_getD, List.getElem?_eq_getElem (by omega), Option.getD_some]
        exact hi r (List.mem_of_mem_take hr') _ (List.getElem_mem _)
      · cases body with
        | nil => exact absurd rfl hne
        | cons b bs =>
          obtain ⟨w, hw'⟩ : ∃ w, window maxRows = w + 1 := ⟨window maxRows - 1, by omega⟩
          rw [hw']
          simp
  have hs : ∀ l : List Str, (l.map fun s => if casts.int s then (-1 : Int) else 1).sum =
      (l.countP (fun s => !casts.int s) : Int) - l.countP (fun s => casts.int s) := by
    intro l
    induction l with
    | nil => rfl
    | cons x l ih =>
      rw [List.map_cons, List.sum_cons, ih, List.countP_cons, List.countP_cons]
      cases casts.int x <;> simp <;> omega
  rw [hv, hs]
  congr 1
  apply propext
  constructor <;> intro h <;> omega

/-- **C113 for plain tables**: the votes of the table count. -/
theorem C113_plain (casts : Casts) (env : PyEnv) (ha : env.Ascii) (ord : SetOrder) (limit : Int) (hl : InLong limit)
    (maxRows : Int) (T : List (List Str)) (h : PlainTable T) (hlen : ∀ r ∈ T, ∀ s ∈ r, (s.length : Int) ≤ limit)
    (d : Char) (hd : d ∈ [',', ';', '|', '\t']) (nl : Str) (hnl : nl = ['\n'] ∨ nl = ['\r', '\n']) (text : Str)
    (htext : text = tableText d nl T ∨ text ++ nl = tableText d nl T) :
    hasHeader casts env ord limit text maxRows = Spec.hasHeader casts maxRows T none := by
  have hnl' : IsLineEnd nl := by rcases hnl with rfl | rfl <;> simp [IsLineEnd]
  have hres : (detect env ord limit text).result = .ok (some (dialectOf (some d) none none)) :=
    congrArg Detection.result (C73_detect_partial env ha ord limit T h d hd nl hnl' text htext true)
  have hdr : d ≠ '\r' := by
    simp only [List.mem_cons, List.not_mem_nil, or_false] at hd
    rcases hd with rfl | rfl | rfl | rfl <;> decide
  obtain ⟨h1, h2⟩ := noLoneCR_table (T := T) (fun r hr s hs hc => by
    have := h.chars r hr s hs _ hc
    revert this
    simp only [PlainChar]
    decide) hdr hnl
  have hcr : NoLoneCR text := by
    rcases htext with rfl | ht
    · exact h1
    · refine NoLoneCR.dropEnd hnl (ht ▸ h1) (fun e hc => h2 e ?_)
      rw [← ht]
      exact List.mem_append_left _ hc
  rw [C45_rows_partial casts env ord hl text maxRows hcr hres,
    h.parse hl hlen (by simpa [PlainDelim] using hd) hnl' htext]

/-- **C113 for tables with quoted cells**. -/
theorem C113_quoted {T : List (List (Bool × Str))} (casts : Casts) (env : PyEnv) (ord : SetOrder) (limit : Int)
    (hl : InLong limit) (maxRows : Int) (q : Char) (hq : q ∈ ['"', '\'']) (h : QuotedTable q T)
    (hlen : ∀ r ∈ T, ∀ x ∈ r, (x.2.length : Int) + 2 ≤ limit) (d : Char) (hd : d ∈ [',', ';', '|', '\t']) (nl : Str)
    (hnl : IsLineEnd nl) (text : Str) (htext : text = quotedText d q nl T ∨ text ++ nl = quotedText d q nl T)
    (hesc : NoEscapes env text) (hcr : NoLoneCR text) :
    hasHeader casts env ord limit text maxRows = Spec.hasHeader casts maxRows (values T) none := by
  have hres : (detect env ord limit text).result = .ok (some (dialectOf (some d) (some q) none)) :=
    congrArg Detection.result (C91_detect env ord limit q hq h d hd nl hnl text htext hesc true)
  rw [C45_rows_partial casts env ord hl text maxRows hcr hres,
    (h.parse_flags hl hlen (by simpa [PlainDelim] using hd) (by simpa [PlainQuote] using hq) hnl htext).2]

/-- A concrete case. -/
example : hasHeader digitCasts asciiEnv .forward 99 "name,age\n1,20\n2,30\n".toList = .ok true ∧
    hasHeader digitCasts asciiEnv .forward 99 "name,age\r\n1,20\r\n2,30".toList = .ok true ∧
    hasHeader digitCasts asciiEnv .forward 99 "0,age\n1,20\n2,30\n".toList = .ok false := by decide +kernel

end Clever.Props
