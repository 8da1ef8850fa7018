import Verif.Proofs.ParserInv
import Verif.Model.Dialect

/-!
# The characters of the cells come from the text
-/

namespace Clever

variable {α : Type}

/-- Invariant: all characters read so far satisfy `A`. -/
structure CInv (cfg : Cfg) (A : Char → Prop) (P : α → Prop) (o : PObj α) : Prop where
  esc : o.state = .escapedChar ∨ o.state = .escapeInQuotedField → A cfg.escapechar
  quo : o.state = .quoteInQuotedField → cfg.quotechar ≠ NUL
  field : ∀ c ∈ o.field, A c
  cells : ∀ c ∈ o.fields, P c

/-- Cells built from fields with good characters satisfy `P`. -/
def GoodChars (cfg : Cfg) (A : Char → Prop) (mk : Str → Bool → α) (P : α → Prop) : Prop :=
  ∀ f t, (∀ c ∈ f, A c) → P (mk (saveCell cfg.quotechar f t).1 (saveCell cfg.quotechar f t).2)

theorem CInv.init (cfg : Cfg) (A : Char → Prop) (P : α → Prop) : CInv cfg A P PObj.init := by
  constructor <;> simp [PObj.init]

theorem CInv.step {cfg : Cfg} {A : Char → Prop} {mk : Str → Bool → α} {P : α → Prop}
    (hP : GoodChars cfg A mk P) (hnl : A '\n') {o o' : PObj α} {u v : Char} (hu : u ≠ NUL → A u)
    (ho : CInv cfg A P o) (h : processChar cfg mk o u v = .ok o') : CInv cfg A P o' := by
  have f := processChar_ok ho.quo h
  refine ⟨fun hs => ?_, fun hs => ?_, ?_, ?_⟩
  · obtain ⟨rfl, hn⟩ := f.escape hs; exact hu hn
  · obtain ⟨rfl, hn⟩ := f.quoteIn hs; exact hn
  · rcases f.change with ⟨added, _, h2, _, h4, _⟩ | ⟨_, h2, _⟩
    · rw [h2]
      intro c hc
      rcases List.mem_append.mp hc with hc | hc
      · exact ho.field c hc
      · rcases h4 _ hc with ⟨rfl, hn⟩ | ⟨h5, h6⟩ | ⟨h5, _⟩
        · exact hu hn
        · rw [h5]; exact ho.esc h6
        · rw [h5]; exact hnl
    · simp [h2]
  · rcases f.change with ⟨_, h1, _⟩ | ⟨h1, _⟩
    · rw [h1]; exact ho.cells
    · rw [h1]
      intro c hc
      rcases List.mem_append.1 hc with hc | hc
      · exact ho.cells c hc
      · simp at hc; subst hc; exact hP _ _ ho.field

theorem CInv.feedLine {cfg : Cfg} {A : Char → Prop} {mk : Str → Bool → α} {P : α → Prop}
    (hP : GoodChars cfg A mk P) (hnl : A '\n') {l : Str} (hl : ∀ c ∈ l, c ≠ NUL → A c) {o o' : PObj α}
    (ho : CInv cfg A P o) (h : feedLine cfg mk o l = .ok o') : CInv cfg A P o' := by
  induction l generalizing o with
  | nil => exact ho.step hP hnl (fun h => absurd rfl h) h
  | cons u rest ih =>
    rw [Clever.feedLine] at h
    split at h
    · simp at h
    · split at h
      · simp at h
      · rename_i heq
        exact ih (fun c hc => hl c (by simp [hc])) (ho.step hP hnl (hl u (by simp)) heq) h

/-- The characters of the items, apart from NUL, which raises an error. -/
def ItemsIn (A : Char → Prop) (items : List Item) : Prop :=
  ∀ l, Item.str l ∈ items → ∀ c ∈ l, c ≠ NUL → A c

theorem CInv.nextRowFrom {cfg : Cfg} {A : Char → Prop} {mk : Str → Bool → α} {P : α → Prop}
    (hP : GoodChars cfg A mk P) (hnl : A '\n') {items : List Item} (hi : ItemsIn A items)
    {o : PObj α} (ho : CInv cfg A P o) {r : List α} {rest : List Item}
    (h : nextRowFrom cfg mk o items = (.row r, rest)) : (∀ c ∈ r, P c) ∧ ItemsIn A rest := by
  induction items generalizing o with
  | nil =>
    rw [Clever.nextRowFrom] at h
    split at h
    · split at h
      · simp at h
      · simp at h
        obtain ⟨rfl, rfl⟩ := h
        refine ⟨?_, hi⟩
        intro c hc
        simp [saveField] at hc
        rcases hc with hc | rfl
        · exact ho.cells c hc
        · exact hP _ _ ho.field
    · simp at h
  | cons it items ih =>
    have hi' : ItemsIn A items := fun l hl => hi l (by simp [hl])
    cases it with
    | raise => simp [Clever.nextRowFrom] at h
    | nonstr => simp [Clever.nextRowFrom] at h
    | str l =>
      rw [Clever.nextRowFrom] at h
      split at h
      · simp at h
      · rename_i heq
        have ho' := ho.feedLine hP hnl (hi l (by simp)) heq
        split at h
        · simp at h; obtain ⟨rfl, rfl⟩ := h; exact ⟨ho'.cells, hi'⟩
        · exact ih hi' ho' h

theorem parseRows_chars {cfg : Cfg} {A : Char → Prop} {mk : Str → Bool → α} {P : α → Prop}
    (hP : GoodChars cfg A mk P) (hnl : A '\n') (items : List Item) (hi : ItemsIn A items) :
    ∀ r ∈ (parseRows cfg mk items).1, ∀ c ∈ r, P c := by
  have main : ∀ n (items : List Item), items.length ≤ n → ItemsIn A items →
      ∀ r ∈ (parseRows cfg mk items).1, ∀ c ∈ r, P c := by
    intro n
    induction n with
    | zero =>
      intro items h _ r hr
      have : items = [] := by cases items <;> simp_all
      subst this
      simp [parseRows_nil] at hr
    | succ n ih =>
      intro items hlen hi r hr
      rw [parseRows_eq] at hr
      by_cases hi0 : items = []
      · subst hi0; simp [nextRow_nil] at hr
      · have hlt := nextRowFrom_lt cfg mk PObj.init items hi0
        rw [← nextRow] at hlt
        rcases hn : nextRow cfg mk items with ⟨out, rest⟩
        rw [hn] at hr hlt
        cases out with
        | stop => simp at hr
        | error e => simp at hr
        | row r' =>
          simp at hr hlt
          have := (CInv.init cfg A P).nextRowFrom hP hnl hi hn
          rcases hr with rfl | hr
          · exact this.1
          · exact ih rest (by omega) this.2 r hr
  exact main items.length items (Nat.le_refl _) hi

theorem linesUniv_mem : ∀ {t l : Str} {c : Char}, l ∈ linesUniv t → c ∈ l → c ∈ t
  | [], l, c, h, hc => by simp [linesUniv] at h
  | x :: t, l, c, h, hc => by
    rw [linesUniv] at h
    split at h
    · rcases List.mem_cons.mp h with rfl | h
      · simp at hc; simp [hc]
      · exact List.mem_cons_of_mem _ (linesUniv_mem h hc)
    · cases hl : linesUniv t with
      | nil =>
        rw [hl] at h
        simp at h; subst h
        simp at hc; simp [hc]
      | cons y ys =>
        rw [hl] at h
        rcases List.mem_cons.mp h with rfl | h
        · rcases List.mem_cons.mp hc with rfl | hc
          · simp
          · exact List.mem_cons_of_mem _ (linesUniv_mem (t := t) (l := y) (by rw [hl]; simp) hc)
        · exact List.mem_cons_of_mem _ (linesUniv_mem (t := t) (l := l) (by rw [hl]; simp [h]) hc)

/-- Every character of a cell occurs in the text, or is a newline. -/
theorem parseStringQuoted_chars (limit : Int) (d : SimpleDialect) (t : Str) :
    ∀ r ∈ (parseStringQuoted limit d t).1, ∀ x ∈ r, ∀ c ∈ x.1, c ∈ t ∨ c = '\n' := by
  intro r hr x hx
  unfold parseStringQuoted parseData at hr
  split at hr
  · simp at hr
  · rename_i cfg _
    refine parseRows_chars (cfg := cfg) (A := fun c => c ∈ t ∨ c = '\n') (mk := mkQuoted)
      (P := fun x => ∀ c ∈ x.1, c ∈ t ∨ c = '\n') (fun f b h c hc => h c (mem_saveCell hc)) (.inr rfl)
      (strItems (linesUniv t)) ?_ r hr x hx
    intro l hl c hc _
    simp only [strItems, List.mem_map, Item.str.injEq, exists_eq_right] at hl
    exact .inl (linesUniv_mem hl hc)

/-- Every character of a cell occurs in the text and is not NUL, or is a newline. -/
theorem parseString_chars (limit : Int) (d : SimpleDialect) (t : Str) :
    ∀ r ∈ (parseString limit d t).1, ∀ x ∈ r, ∀ c ∈ x, c ∈ t ∧ c ≠ NUL ∨ c = '\n' := by
  intro r hr x hx
  unfold parseString parseData at hr
  split at hr
  · simp at hr
  · rename_i cfg _
    refine parseRows_chars (cfg := cfg) (A := fun c => c ∈ t ∧ c ≠ NUL ∨ c = '\n') (mk := mkPlain)
      (P := fun x => ∀ c ∈ x, c ∈ t ∧ c ≠ NUL ∨ c = '\n') (fun f b h c hc => h c (mem_saveCell hc)) (.inr rfl)
      (strItems (linesUniv t)) ?_ r hr x hx
    intro l hl c hc hn
    simp only [strItems, List.mem_map, Item.str.injEq, exists_eq_right] at hl
    exact .inl ⟨linesUniv_mem hl hc, hn⟩

theorem parseString_noNul (limit : Int) (d : SimpleDialect) (t : Str) :
    ∀ r ∈ (parseString limit d t).1, ∀ x ∈ r, NUL ∉ x := by
  intro r hr x hx hc
  rcases parseString_chars limit d t r hr x hx NUL hc with h | h
  · exact h.2 rfl
  · simp [NUL] at h

end Clever
