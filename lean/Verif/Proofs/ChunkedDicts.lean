import Verif.Model.ChunkedDicts
import Verif.Proofs.ChunkedLive
import Verif.Proofs.DictIO

/-!
# Helper lemmas: dictionaries, chunks and buffers
-/

namespace Clever

open Spec

/-- The dictionaries that `DictReader` makes of the rows of a reader. -/
def toDicts (g : Gen (List Str)) : Gen (List (Key × DVal)) :=
  match g with
  | ([], err) => ([], err)
  | (header :: rows, err) => ((rows.filter (· ≠ [])).map (rowDict (header.map some) none), err)

theorem toDicts_err (g : Gen (List Str)) : (toDicts g).2 = g.2 := by
  rcases g with ⟨_ | ⟨h, rows⟩, err⟩ <;> rfl

theorem toDicts_prefix {g g' : Gen (List Str)} (h : g.1 <+: g'.1) : (toDicts g).1 <+: (toDicts g').1 := by
  rcases g with ⟨_ | ⟨a, rows⟩, err⟩
  · exact List.nil_prefix
  · rcases g' with ⟨_ | ⟨b, rows'⟩, err'⟩
    · simp at h
    · simp only [List.cons_prefix_cons] at h
      obtain ⟨rfl, h⟩ := h
      exact (h.filter _).map _

theorem toDicts_passOn (f : TextIn) (g : Gen (List Str)) : toDicts (f.passOn g) = f.passOn (toDicts g) := by
  rcases g with ⟨_ | ⟨h, rows⟩, err⟩ <;> rfl

theorem mkDictReader_toDicts (source : Source) (arg : DialectArg) (limit : Int) :
    (mkDictReader source arg).map (·.readAll limit) = (mkReader source arg).map fun r => toDicts (r.readAll limit) := by
  cases hr : mkReader source arg with
  | error e => simp [mkDictReader, hr, bind, Except.bind, Except.map]
  | ok r =>
    obtain ⟨d, -, rfl⟩ := mkReader_form hr
    simp only [mkDictReader, hr, bind, Except.bind, pure, Except.pure, Except.map, DictReader.readAll_eq]
    rcases (⟨source, d, 0, none⟩ : Reader).readAll limit with ⟨_ | ⟨h, rows⟩, err⟩ <;> rfl

/-- The end of `stream_dicts` and `stream_table`. -/
theorem dict_tail (pt : Gen (List Str) → Gen (List Str)) (pd : Gen (List (Key × DVal)) → Gen (List (Key × DVal)))
    (hp : ∀ g, toDicts (pt g) = pd (toDicts g)) (source : Source) (arg : DialectArg) (w : World) :
    (do let r ← liftExcept (mkDictReader source arg); return pd (r.readAll (← getLimit)) :
      Act (Gen (List (Key × DVal)))) w =
    (((do let r ← liftExcept (mkReader source arg); return pt (r.readAll (← getLimit)) :
      Act (Gen (List Str))) w).1.map toDicts,
     ((do let r ← liftExcept (mkReader source arg); return pt (r.readAll (← getLimit)) :
      Act (Gen (List Str))) w).2) := by
  have h := mkDictReader_toDicts source arg w.limit
  simp only [act_bind, liftExcept_apply]
  cases hr : mkReader source arg with
  | error e =>
    cases hd : mkDictReader source arg with
    | error e' => rw [hr, hd] at h; simp only [Except.map, Except.error.injEq] at h; subst h; rfl
    | ok r => rw [hr, hd] at h; simp [Except.map] at h
  | ok r =>
    cases hd : mkDictReader source arg with
    | error e' => rw [hr, hd] at h; simp [Except.map] at h
    | ok r' =>
      rw [hr, hd] at h
      simp only [Except.map, Except.ok.injEq] at h
      simp only [getLimit_apply, act_pure, Except.map, hp, h]

/-- `stream_dicts` does what `stream_table` does, and makes dictionaries of the rows. -/
theorem streamDictsC_eq (sys : Sys) (io : Io) (p : Path) (dialect : Option DialectArg) (enc : Option Str) (n : Option Int)
    (w : World) :
    streamDictsC sys io p dialect enc n w =
      ((streamTableC sys io p dialect enc n w).1.map toDicts, (streamTableC sys io p dialect enc n w).2) := by
  unfold streamDictsC streamTableC
  simp only [act_bind]
  cases h1 : chooseEncoding sys p enc w with
  | mk r1 w1 =>
  cases r1 with
  | error e => rfl
  | ok e =>
  simp only
  cases h2 : openStream sys io p e w1 with
  | mk r2 w2 =>
  cases r2 with
  | error e => rfl
  | ok f =>
  simp only
  cases dialect with
  | some d => exact dict_tail _ _ (toDicts_passOn f) _ d w2
  | none =>
  simp only [act_bind, liftExcept_apply]
  cases f.readSome n with
  | error e => rfl
  | ok data =>
  simp only
  cases h3 : runDetector sys data "auto".toList true w2 with
  | mk r3 w3 =>
  rcases r3 with e | _ | d
  · rfl
  · rfl
  simp only [act_bind]
  cases h4 : openStream sys io p e w3 with
  | mk r4 w4 =>
  cases r4 with
  | error e => rfl
  | ok f' =>
  have := dict_tail _ _ (toDicts_passOn f') (.stream f'.items) (.simple d) w4
  simp only [act_bind] at this ⊢
  exact this

/-- The same if files are read at once. -/
theorem streamDicts_eq (sys : Sys) (p : Path) (dialect : Option DialectArg) (enc : Option Str) (n : Option Int)
    (w : World) :
    streamDicts sys p dialect enc n w =
      ((streamTable sys p dialect enc n w).1.map toDicts, (streamTable sys p dialect enc n w).2) := by
  unfold streamDicts streamTable
  simp only [act_bind]
  cases h1 : chooseEncoding sys p enc w with
  | mk r1 w1 =>
  cases r1 with
  | error e => rfl
  | ok e =>
  simp only
  cases h2 : openText sys p e w1 with
  | mk r2 w2 =>
  cases r2 with
  | error e => rfl
  | ok text =>
  simp only
  cases h3 : chooseDialect sys dialect text n w2 with
  | mk r3 w3 =>
  cases r3 with
  | error e => rfl
  | ok d =>
  exact dict_tail id id (fun _ => rfl) _ d w3

/-- Opening a file, making a writer and writing everything, with a buffer and without. -/
theorem write_general {α : Type} (sys : Sys) (io : Io) (p : Path) (enc : Option Str) (m : Except PyExc α) (G : α → Gen Str)
    (w w' : World) (r : Except PyExc Unit)
    (h : (do let c ← openTextWrite sys p enc; let x ← liftExcept m; writeAndClose sys io p c (G x) : Act Unit) w = (r, w')) :
    (r = .ok () → ∃ w2, (do let c ← openTextWrite (quiet sys) p enc; let x ← liftExcept m; writeGen (quiet sys) p c (G x) :
      Act Unit) w = (.ok (), w2) ∧ w2.files = w'.files ∧ w2.stdout = w'.stdout ∧ w2.limit = w'.limit) ∧
    (∀ q, q ≠ p → w'.files q = w.files q) ∧ w'.stdout = w.stdout ∧ w'.limit = w.limit ∧
    (∀ w2, (do let c ← openTextWrite (quiet sys) p enc; let x ← liftExcept m; writeGen (quiet sys) p c (G x) :
      Act Unit) w = (.ok (), w2) →
      w'.files p = w.files p ∨ ∃ b cur, w2.files p = some b ∧ w'.files p = some cur ∧ cur <+: b) ∧
    (Quiet sys → ∀ w2, (do let c ← openTextWrite sys p enc; let x ← liftExcept m; writeGen sys p c (G x) :
      Act Unit) w = (.ok (), w2) → r = .ok ()) := by
  have hset : ∀ q, q ≠ p → (w.next.set p (some [])).files q = w.files q := by
    intro q hq; rw [World.set_other _ _ hq]; rfl
  have hquiet : openWrite (quiet sys) p w = (.ok (), w.next.set p (some [])) := by rw [openWrite_apply]; rfl
  cases hfault : sys.fault w.ticks with
  | some k =>
    have h0 : openTextWrite sys p enc w = (.error .osError, w.next) := by
      unfold openTextWrite
      have : openWrite sys p w = (.error .osError, w.next) := by rw [openWrite_apply, hfault]
      rw [act_bind_error this]
    rw [act_bind_error h0] at h
    simp only [Prod.mk.injEq] at h
    obtain ⟨rfl, rfl⟩ := h
    refine ⟨by simp, fun _ _ => rfl, rfl, rfl, fun _ _ => .inl rfl, fun hq => ?_⟩
    rw [hq] at hfault
    cases hfault
  | none =>
    have h0 : openWrite sys p w = (.ok (), w.next.set p (some [])) := by rw [openWrite_apply, hfault]
    cases hc : sys.codec enc with
    | none =>
      have h1 : openTextWrite sys p enc w = (.error .lookupError, w.next.set p (some [])) := by
        unfold openTextWrite
        rw [act_bind_ok h0, getCodec_apply, hc]
      have h2 : openTextWrite (quiet sys) p enc w = (.error .lookupError, w.next.set p (some [])) := by
        unfold openTextWrite
        rw [act_bind_ok hquiet, getCodec_apply]
        simp only [quiet, hc]
      rw [act_bind_error h1] at h
      simp only [Prod.mk.injEq] at h
      obtain ⟨rfl, rfl⟩ := h
      refine ⟨by simp, hset, rfl, rfl, ?_, ?_⟩
      · intro w2 h3
        rw [act_bind_error h2] at h3
        simp at h3
      · intro _ w2 h3
        rw [act_bind_error h1] at h3
        simp at h3
    | some c =>
      have h1 : openTextWrite sys p enc w = (.ok c, w.next.set p (some [])) := by
        unfold openTextWrite
        rw [act_bind_ok h0, getCodec_apply, hc]
      have h2 : openTextWrite (quiet sys) p enc w = (.ok c, w.next.set p (some [])) := by
        unfold openTextWrite
        rw [act_bind_ok hquiet, getCodec_apply]
        simp only [quiet, hc]
      rw [act_bind_ok h1] at h
      cases hm : m with
      | error e =>
        rw [hm, act_bind_error (liftExcept_apply _ _)] at h
        simp only [Prod.mk.injEq] at h
        obtain ⟨rfl, rfl⟩ := h
        refine ⟨by simp, hset, rfl, rfl, ?_, ?_⟩
        · intro w2 h4
          rw [act_bind_ok h2, act_bind_error (liftExcept_apply _ _)] at h4
          simp at h4
        · intro _ w2 h4
          rw [act_bind_ok h1, act_bind_error (liftExcept_apply _ _)] at h4
          simp at h4
      | ok wd =>
        rw [hm, act_bind_ok (liftExcept_apply _ _)] at h
        obtain ⟨k1, k2, k3, ⟨cur, k4, k, s, b, k5, k6⟩, k7, k8⟩ := writeAndClose_spec (by simp) h
        refine ⟨?_, fun q hq => by rw [k1 q hq, hset q hq], k3, k2, ?_, ?_⟩
        · rintro rfl
          obtain ⟨hn, s', b', hb, hfile⟩ := k7 () rfl
          obtain ⟨w2, j1, j2, j3⟩ := writeGen_ok (quiet_quiet sys) (p := p) (w := w.next.set p (some [])) (by simp) hb
          rw [← hn] at j1
          obtain ⟨-, _, _, -, -, j4, j5⟩ := writeGen_inv (old := []) (by simp) j1
          refine ⟨w2, ?_, ?_, by rw [j5, k3], by rw [j4, k2]⟩
          · rw [act_bind_ok h2, act_bind_ok (liftExcept_apply _ _)]
            exact j1
          · funext q
            by_cases hq : q = p
            · subst hq; rw [j2, hfile]
            · rw [j3 q hq, k1 q hq]
        · intro w2 h4
          rw [act_bind_ok h2, act_bind_ok (liftExcept_apply _ _)] at h4
          obtain ⟨hn, s', b', hb, hfile, -⟩ := writeGen_inv (old := []) (by simp) h4
          refine .inr ⟨b', cur, by simpa using hfile, k4, ?_⟩
          obtain ⟨r', hr'⟩ := List.take_prefix k (G wd).1
          rw [← hr', List.flatten_append, encodeFrom_append, k5, Option.bind_some] at hb
          cases hx : c.encodeFrom s r'.flatten with
          | none => simp [hx] at hb
          | some y =>
            simp [hx] at hb
            rw [← hb.2]
            exact k6.trans (List.prefix_append _ _)
        · intro hq w2 h4
          rw [act_bind_ok h1, act_bind_ok (liftExcept_apply _ _)] at h4
          obtain ⟨hn, s', b', hb, -⟩ := writeGen_inv (old := []) (by simp) h4
          exact k8 hq hn (by rw [hb]; simp)

/-- Nothing is flushed before the file is closed. -/
theorem bufferPieces_unflushed {sys : Sys} {io : Io} (hio : ∀ k, io.flush k = 0) (p : Path) (c : Codec) (w : World) :
    ∀ (pieces : List Str) (s : Nat) (buf : Bytes), ∃ x, bufferPieces sys io p c s buf pieces w = (.ok x, w)
  | [], _, buf => ⟨(buf, none), rfl⟩
  | y :: ys, s, buf => by
    rw [bufferPieces]
    cases c.encodeFrom s y with
    | none => exact ⟨_, rfl⟩
    | some z =>
      obtain ⟨s', b⟩ := z
      simp only [hio, List.take_zero, List.drop_zero, List.isEmpty_nil, if_true]
      exact bufferPieces_unflushed hio p c w ys s' (buf ++ b)

theorem writeAndClose_closeFails {sys : Sys} {io : Io} (hio : ∀ k, io.flush k = 0) (p : Path) (c : Codec) (g : Gen Str) (w : World)
    {k : Nat} (hf : sys.fault w.ticks = some k) : (writeAndClose sys io p c g w).1 = .error .osError := by
  obtain ⟨x, hx⟩ := bufferPieces_unflushed (sys := sys) hio p c w g.1 0 []
  unfold writeAndClose
  rw [act_bind_ok hx, act_bind, append_apply, hf]

end Clever
