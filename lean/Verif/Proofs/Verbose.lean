import Verif.Model.Verbose
import Verif.Proofs.World
import Verif.Proofs.Double
import Verif.Proofs.Consistency
import Mathlib.Tactic.Linarith

/-!
# Programs that print more
-/

namespace Clever

variable {α β : Type}

/-- The world with another standard output. -/
def World.out (w : World) (s : Str) : World := { w with stdout := s }

/-- `B` does what `A` does, and prints what `A` prints and perhaps more. -/
def Louder (A B : Act α) : Prop := ∀ w s, ∃ x y, x.Sublist y ∧ (A w).2.stdout = w.stdout ++ x ∧
  B (w.out s) = ((A w).1, (A w).2.out (s ++ y))

theorem louder_silent {A : Act α} (h : ∀ w, (A w).2.stdout = w.stdout)
    (h' : ∀ w s, A (w.out s) = ((A w).1, (A w).2.out s)) : Louder A A :=
  fun w s => ⟨[], [], .slnil, by simp [h], by simp [h']⟩

theorem Louder.bind {A B : Act α} {f g : α → Act β} (h : Louder A B) (hf : ∀ a, Louder (f a) (g a)) :
    Louder (A >>= f) (B >>= g) := by
  intro w s
  obtain ⟨x, y, h1, h2, h3⟩ := h w s
  rcases hA : A w with ⟨_ | a, w1⟩
  · rw [hA] at h2 h3
    exact ⟨x, y, h1, by rw [act_bind_error hA]; exact h2, by rw [act_bind_error h3, act_bind_error hA]⟩
  · rw [hA] at h2 h3
    simp only at h2 h3
    obtain ⟨x', y', h1', h2', h3'⟩ := hf a w1 (s ++ y)
    refine ⟨x ++ x', y ++ y', h1.append h1', ?_, ?_⟩
    · rw [act_bind_ok hA, h2', h2, List.append_assoc]
    · rw [act_bind_ok h3, act_bind_ok hA, h3', List.append_assoc]

theorem louder_pure (a : α) : Louder (pure a) (pure a) := louder_silent (fun _ => rfl) fun _ _ => rfl

theorem louder_raise (e : PyExc) : Louder (raise e : Act α) (raise e) := louder_silent (fun _ => rfl) fun _ _ => rfl

theorem louder_liftExcept (x : Except PyExc α) : Louder (liftExcept x) (liftExcept x) :=
  louder_silent (fun _ => rfl) fun _ _ => rfl

theorem louder_getLimit : Louder getLimit getLimit := louder_silent (fun _ => rfl) fun _ _ => rfl

theorem louder_printText (t : Str) : Louder (printText t) (printText t) :=
  fun _ _ => ⟨t, t, List.Sublist.refl _, rfl, rfl⟩

theorem louder_openRead (sys : Sys) (p : Path) : Louder (openRead sys p) (openRead sys p) := by
  apply louder_silent
  · intro w
    rw [openRead_apply]
    cases sys.fault w.ticks <;> simp only
    · cases w.files p <;> rfl
    · rfl
  · intro w s
    rw [openRead_apply, openRead_apply]
    simp only [World.out]
    cases sys.fault w.ticks <;> simp only
    · cases w.files p <;> rfl
    · rfl

theorem louder_openWrite (sys : Sys) (p : Path) : Louder (openWrite sys p) (openWrite sys p) := by
  apply louder_silent
  · intro w
    rw [openWrite_apply]
    cases sys.fault w.ticks <;> rfl
  · intro w s
    rw [openWrite_apply, openWrite_apply]
    simp only [World.out]
    cases sys.fault w.ticks <;> rfl

theorem louder_append (sys : Sys) (p : Path) (b : Bytes) : Louder (append sys p b) (append sys p b) := by
  apply louder_silent
  · intro w
    rw [append_apply]
    cases sys.fault w.ticks <;> rfl
  · intro w s
    rw [append_apply, append_apply]
    simp only [World.out]
    cases sys.fault w.ticks <;> rfl

theorem louder_unlink (sys : Sys) (p : Path) : Louder (unlink sys p) (unlink sys p) := by
  apply louder_silent
  · intro w
    rw [unlink_apply]
    cases sys.fault w.ticks <;> rfl
  · intro w s
    rw [unlink_apply, unlink_apply]
    simp only [World.out]
    cases sys.fault w.ticks <;> rfl

theorem louder_rename (sys : Sys) (p q : Path) : Louder (rename sys p q) (rename sys p q) := by
  apply louder_silent
  · intro w
    rw [rename_apply]
    cases sys.fault w.ticks <;> rfl
  · intro w s
    rw [rename_apply, rename_apply]
    simp only [World.out]
    cases sys.fault w.ticks <;> rfl

theorem louder_mkstemp (sys : Sys) : Louder (mkstemp sys) (mkstemp sys) := by
  apply louder_silent
  · intro w
    rw [mkstemp_apply]
    cases sys.fault w.ticks <;> simp only
    · split <;> rfl
    · rfl
  · intro w s
    rw [mkstemp_apply, mkstemp_apply]
    have e1 : (w.out s).ticks = w.ticks := rfl
    have e2 : (w.out s).files = w.files := rfl
    rw [e1, e2]
    cases sys.fault w.ticks <;> simp only
    · by_cases h : w.files (sys.tempName w.files) = none
      · rw [if_pos h, if_pos h]; rfl
      · rw [if_neg h, if_neg h]; rfl
    · rfl

theorem louder_getCodec (sys : Sys) (e : Option Str) : Louder (getCodec sys e) (getCodec sys e) := by
  unfold getCodec
  cases sys.codec e
  · exact louder_raise _
  · exact louder_pure _

theorem louder_openText (sys : Sys) (p : Path) (e : Option Str) : Louder (openText sys p e) (openText sys p e) := by
  unfold openText
  refine (louder_openRead sys p).bind fun b => (louder_getCodec sys e).bind fun c => ?_
  cases c.decode b
  · exact louder_raise _
  · exact louder_pure _

theorem louder_writePieces (sys : Sys) (p : Path) (c : Codec) :
    ∀ (l : List Str) (n : Nat), Louder (writePieces sys p c n l) (writePieces sys p c n l)
  | [], _ => louder_pure _
  | x :: xs, n => by
    unfold writePieces
    cases c.encodeFrom n x with
    | none => exact louder_raise _
    | some r => exact (louder_append sys p r.2).bind fun _ => louder_writePieces sys p c xs r.1

theorem louder_writeGen (sys : Sys) (p : Path) (c : Codec) (g : Gen Str) :
    Louder (writeGen sys p c g) (writeGen sys p c g) := by
  unfold writeGen
  refine (louder_writePieces sys p c g.1 0).bind fun _ => ?_
  cases g.2
  · exact louder_pure _
  · exact louder_raise _

theorem louder_openTextWrite (sys : Sys) (p : Path) (e : Option Str) :
    Louder (openTextWrite sys p e) (openTextWrite sys p e) :=
  (louder_openWrite sys p).bind fun _ => louder_getCodec sys e

theorem louder_sha1sum (sys : Sys) (p : Path) : Louder (sha1sum sys p) (sha1sum sys p) :=
  (louder_openRead sys p).bind fun _ => louder_pure _

theorem louder_getEncoding (sys : Sys) (p : Path) : Louder (getEncoding sys p) (getEncoding sys p) :=
  (louder_openRead sys p).bind fun _ => louder_pure _

theorem louder_move (sys : Sys) (p q : Path) : Louder (move sys p q) (move sys p q) := by
  unfold move
  split
  · exact (louder_openRead sys p).bind fun b => (louder_openWrite sys q).bind fun _ =>
      (louder_append sys q b).bind fun _ => louder_unlink sys p
  · exact louder_rename sys p q

theorem louder_writeToStream (sys : Sys) (t : Bool) (p : Path) (d : SimpleDialect) (e : Option Str) :
    Louder (writeToStream sys t p d e) (writeToStream sys t p d e) := by
  unfold writeToStream
  refine (louder_openText sys p e).bind fun text => (louder_liftExcept _).bind fun r => louder_getLimit.bind fun n => ?_
  cases t
  · exact (louder_liftExcept _).bind fun wd => louder_pure _
  · exact (louder_liftExcept _).bind fun rows => (louder_liftExcept _).bind fun wd => louder_pure _

theorem louder_inPlace (sys : Sys) (t : Bool) (p : Path) (d : SimpleDialect) (e e' : Option Str) :
    Louder (inPlace sys t p d e e') (inPlace sys t p d e e') := by
  unfold inPlace
  refine (louder_mkstemp sys).bind fun tmp => (louder_getCodec sys e').bind fun c =>
    (louder_writeToStream sys t p d e).bind fun g => (louder_writeGen sys tmp c g).bind fun _ =>
    (louder_sha1sum sys p).bind fun a => (louder_sha1sum sys tmp).bind fun b => ?_
  split
  · exact (louder_unlink sys tmp).bind fun _ => louder_pure _
  · exact (louder_move sys tmp p).bind fun _ => louder_pure _

theorem louder_toStdout (sys : Sys) (t : Bool) (p : Path) (d : SimpleDialect) (e : Option Str) :
    Louder (toStdout sys t p d e) (toStdout sys t p d e) :=
  (louder_writeToStream sys t p d e).bind fun _ => (louder_liftExcept _).bind fun _ => (louder_printText _).bind fun _ =>
    louder_pure _

theorem louder_toFile (sys : Sys) (t : Bool) (p o : Path) (d : SimpleDialect) (e e' : Option Str) :
    Louder (toFile sys t p o d e e') (toFile sys t p o d e e') :=
  (louder_openTextWrite sys o e').bind fun c => (louder_writeToStream sys t p d e).bind fun g =>
    (louder_writeGen sys o c g).bind fun _ => louder_pure _

theorem louder_encodingOr (sys : Sys) (p : Path) (e : Option Str) :
    Louder (encodingOr sys p e) (encodingOr sys p e) := by
  unfold encodingOr
  cases truthy e
  · exact louder_getEncoding sys p
  · exact louder_pure _

theorem louder_chooseEncoding (sys : Sys) (p : Path) (e : Option Str) :
    Louder (chooseEncoding sys p e) (chooseEncoding sys p e) := by
  unfold chooseEncoding
  cases e
  · exact louder_getEncoding sys p
  · exact louder_pure _

/-! ## Detection -/

theorem scoreLoopV_fst (pr : Printer) (v : Bool) {pat : SimpleDialect → Except PyExc ℚ}
    {typ : TypeCache → SimpleDialect → Except PyExc ℚ × TypeCache} {skip : Bool} :
    ∀ (ds : List SimpleDialect) (inc : Option ℚ) (cache : TypeCache) (scores : List (SimpleDialect × ConsistencyScore)),
      (scoreLoopV pr v pat typ skip ds inc cache scores).1 = scoreLoop pat typ skip ds inc cache scores
  | [], _, _, _ => rfl
  | d :: ds, inc, cache, scores => by
    rw [scoreLoopV, scoreLoop]
    cases pat d with
    | error e => rfl
    | ok P =>
      simp only
      split
      · exact scoreLoopV_fst pr v ds _ _ _
      · rcases typ cache d with ⟨_ | T, c'⟩
        · rfl
        · exact scoreLoopV_fst pr v ds _ _ _

theorem computeV_fst (pr : Printer) (v : Bool) (env : PyEnv) (cap : Option Nat) (skip : Bool) (cache : TypeCache)
    (limit : Int) (data : Str) (l : List SimpleDialect) :
    (computeConsistencyScoresV pr v env cap skip cache limit data l).1 =
      computeConsistencyScores env cap skip cache limit data l := by
  unfold computeConsistencyScoresV computeConsistencyScores
  cases sortDialects l with
  | error e => rfl
  | ok ds => exact scoreLoopV_fst ..

theorem consistencyDetectV_fst (pr : Printer) (v : Bool) (env : PyEnv) (ord : SetOrder) (cap : Option Nat) (skip : Bool)
    (limit : Int) (data : Str) (ds : Option (List Str)) :
    (consistencyDetectV pr v env ord cap skip limit data ds).1 = consistencyDetect env ord cap skip limit data ds := by
  unfold consistencyDetectV consistencyDetect
  simp only [computeV_fst]
  cases (computeConsistencyScores env cap skip [] (↑data.length + 1) data (getDialects env ord data ds)).1 with
  | error e => rfl
  | ok scores =>
    simp only
    generalize getBestDialects scores = best
    match best with
    | [d] => rfl
    | [] => simp only; cases tieBreaker ord (↑data.length + 1) data [] <;> rfl
    | a :: b :: r => simp only; cases tieBreaker ord (↑data.length + 1) data (a :: b :: r) <;> rfl

theorem detectDialectNormalV_fst (v : Bool) (env : PyEnv) (data : Str) (ds : Option (List Str)) :
    (detectDialectNormalV v env data ds).1 = detectDialectNormal env data ds := by
  unfold detectDialectNormalV detectDialectNormal
  simp only
  split
  · rfl
  · cases (formTests (ds.getD nfDelims)).find? fun t => t.holds (splitFile data) <;> rfl

theorem detectV_fst (pr : Printer) (v : Bool) (env : PyEnv) (ord : SetOrder) (limit : Int) (data : Str)
    (ds : Option (List Str)) (m : DetectionMethod) (skip : Bool) :
    (detectV pr v env ord limit data ds m skip).1 = detect env ord limit data ds m skip := by
  unfold detectV detect
  simp only [consistencyDetectV_fst, detectDialectNormalV_fst]
  split
  · cases detectDialectNormal env data ds <;> rfl
  · rfl

theorem detectStrV_fst (pr : Printer) (v : Bool) (env : PyEnv) (ord : SetOrder) (limit : Int) (data : Str)
    (ds : Option (List Str)) (m : Str) (skip : Bool) :
    (detectStrV pr v env ord limit data ds m skip).1 = detectStr env ord limit data ds m skip := by
  unfold detectStrV detectStr
  cases DetectionMethod.ofString m with
  | error e => rfl
  | ok m => exact detectV_fst ..

theorem scoreLoopV_silent (pr : Printer) {pat : SimpleDialect → Except PyExc ℚ}
    {typ : TypeCache → SimpleDialect → Except PyExc ℚ × TypeCache} {skip : Bool} :
    ∀ (ds : List SimpleDialect) (inc : Option ℚ) (cache : TypeCache) (scores : List (SimpleDialect × ConsistencyScore)),
      (scoreLoopV pr false pat typ skip ds inc cache scores).2 = []
  | [], _, _, _ => rfl
  | d :: ds, inc, cache, scores => by
    rw [scoreLoopV]
    cases pat d with
    | error e => rfl
    | ok P =>
      simp only
      split
      · simp [say, scoreLoopV_silent pr ds]
      · rcases typ cache d with ⟨_ | T, c'⟩
        · rfl
        · simp [say, scoreLoopV_silent pr ds]

theorem consistencyDetectV_snd (pr : Printer) (v : Bool) (env : PyEnv) (ord : SetOrder) (cap : Option Nat) (skip : Bool)
    (limit : Int) (data : Str) (ds : Option (List Str)) :
    (consistencyDetectV pr v env ord cap skip limit data ds).2 =
      (computeConsistencyScoresV pr v env cap skip [] (data.length + 1) data (getDialects env ord data ds)).2 := by
  unfold consistencyDetectV
  simp only
  split
  · rfl
  · split
    · rfl
    · split <;> rfl

theorem detectStrV_silent (pr : Printer) (env : PyEnv) (ord : SetOrder) (limit : Int) (data : Str)
    (ds : Option (List Str)) (m : Str) (skip : Bool) :
    (detectStrV pr false env ord limit data ds m skip).2 = [] := by
  have hc : (consistencyDetectV pr false env ord (some 100000) skip limit data ds).2 = [] := by
    rw [consistencyDetectV_snd]
    unfold computeConsistencyScoresV
    cases sortDialects (getDialects env ord data ds) with
    | error e => rfl
    | ok l => exact scoreLoopV_silent ..
  have hn : (detectDialectNormalV false env data ds).2 = [] := by
    unfold detectDialectNormalV
    simp only
    split
    · rfl
    · cases (formTests (ds.getD nfDelims)).find? fun t => t.holds (splitFile data) <;> rfl
  unfold detectStrV
  cases DetectionMethod.ofString m with
  | error e => rfl
  | ok m =>
    simp only [detectV]
    split
    · split
      · simp [say, hn]
      · simp [say, hn, hc]
    · simp [say, hc]

theorem louder_runDetector (sys : Sys) (pr : Printer) (v : Bool) (data : Str) (m : Str) (skip : Bool) :
    Louder (runDetector sys data m skip) (runDetectorV sys pr v data m skip) := by
  intro w s
  refine ⟨[], (detectStrV pr v sys.env sys.order w.limit data none m skip).2.flatMap fun l => l ++ ['\n'],
    List.nil_sublist _, by simp [runDetector], ?_⟩
  simp [runDetector, runDetectorV, World.out, detectStrV_fst]

theorem louder_detectDialect (sys : Sys) (pr : Printer) (v : Bool) (p : Path) (n : Option Int) (e : Option Str)
    (m : Str) (skip : Bool) : Louder (detectDialect sys p n e m skip) (detectDialectV sys pr v p n e m skip) := by
  unfold detectDialect detectDialectV
  have h : ∀ enc, Louder (openText sys p enc >>= fun text => runDetector sys (readSome text n) m skip)
      (openText sys p enc >>= fun text => runDetectorV sys pr v (readSome text n) m skip) := fun enc =>
    (louder_openText sys p enc).bind fun text => louder_runDetector sys pr v _ _ _
  cases truthy e
  · exact (louder_getEncoding sys p).bind h
  · exact (louder_pure _).bind h

theorem louder_chooseDialect (sys : Sys) (pr : Printer) (v : Bool) (d : Option DialectArg) (text : Str)
    (n : Option Int) : Louder (chooseDialect sys d text n) (chooseDialectV sys pr v d text n) := by
  unfold chooseDialect chooseDialectV
  cases d with
  | some d => exact louder_pure _
  | none =>
    refine (louder_runDetector sys pr v (readSome text n) _ _).bind fun r => ?_
    cases r
    · exact louder_raise _
    · exact louder_pure _

theorem louder_streamTable (sys : Sys) (pr : Printer) (v : Bool) (p : Path) (d : Option DialectArg) (e : Option Str)
    (n : Option Int) : Louder (streamTable sys p d e n) (streamTableV sys pr v p d e n) :=
  (louder_chooseEncoding sys p e).bind fun _ => (louder_openText sys p _).bind fun text =>
    (louder_chooseDialect sys pr v d text n).bind fun _ => (louder_liftExcept _).bind fun _ =>
    louder_getLimit.bind fun _ => louder_pure _

theorem louder_readTable (sys : Sys) (pr : Printer) (v : Bool) (p : Path) (d : Option DialectArg) (e : Option Str)
    (n : Option Int) : Louder (readTable sys p d e n) (readTableV sys pr v p d e n) :=
  (louder_streamTable sys pr v p d e n).bind fun _ => louder_liftExcept _

theorem louder_streamDicts (sys : Sys) (pr : Printer) (v : Bool) (p : Path) (d : Option DialectArg) (e : Option Str)
    (n : Option Int) : Louder (streamDicts sys p d e n) (streamDictsV sys pr v p d e n) :=
  (louder_chooseEncoding sys p e).bind fun _ => (louder_openText sys p _).bind fun text =>
    (louder_chooseDialect sys pr v d text n).bind fun _ => (louder_liftExcept _).bind fun _ =>
    louder_getLimit.bind fun _ => louder_pure _

theorem louder_readDicts (sys : Sys) (pr : Printer) (v : Bool) (p : Path) (d : Option DialectArg) (e : Option Str)
    (n : Option Int) : Louder (readDicts sys p d e n) (readDictsV sys pr v p d e n) :=
  (louder_streamDicts sys pr v p d e n).bind fun _ => louder_liftExcept _

theorem louder_detectCmd (sys : Sys) (pr : Printer) (v : Bool) (p : Path) (e : Option Str) (n : Option Int)
    (c ns : Bool) (f : DetectFormat) : Louder (detectCmd sys pr p e n c ns f) (detectCmdV sys pr v p e n c ns f) := by
  unfold detectCmd detectCmdV
  refine (louder_detectDialect sys pr v p n e _ _).bind fun r => ?_
  cases r
  · exact louder_pure _
  · exact (louder_liftExcept _).bind fun _ => (louder_printText _).bind fun _ => louder_pure _

theorem louder_codeCmd (sys : Sys) (pr : Printer) (v : Bool) (p : Path) (e : Option Str) (n : Option Int)
    (pd : Bool) : Louder (codeCmd sys pr p e n pd) (codeCmdV sys pr v p e n pd) := by
  unfold codeCmd codeCmdV
  refine (louder_encodingOr sys p e).bind fun enc => (louder_detectDialect sys pr v p n enc _ _).bind fun r => ?_
  cases r
  · exact louder_pure _
  · exact (louder_liftExcept _).bind fun _ => (louder_printText _).bind fun _ => louder_pure _

theorem louder_exploreCmd (sys : Sys) (pr : Printer) (v : Bool) (con : Console) (p : Path) (e : Option Str)
    (n : Option Int) (pd : Bool) : Louder (exploreCmd sys pr con p e n pd) (exploreCmdV sys pr v con p e n pd) := by
  unfold exploreCmd exploreCmdV
  refine (louder_encodingOr sys p e).bind fun enc => (louder_detectDialect sys pr v p n enc _ _).bind fun r => ?_
  cases r
  · exact louder_pure _
  · refine (louder_liftExcept _).bind fun lines => ?_
    simp only
    split
    · exact (louder_printText _).bind fun _ => (louder_printText _).bind fun _ => louder_pure _
    · exact (louder_printText _).bind fun _ => louder_pure _

theorem louder_viewCmd (sys : Sys) (pr : Printer) (v : Bool) (p : Path) (e : Option Str) (n : Option Int)
    (t : Bool) : Louder (viewCmd sys p e n t) (viewCmdV sys pr v p e n t) := by
  intro w s
  obtain ⟨x, y, h1, h2, h3⟩ := louder_readTable sys pr v p none e n w s
  refine ⟨x, y, h1, ?_, ?_⟩
  · unfold viewCmd
    rcases hr : readTable sys p none e n w with ⟨r, w1⟩
    rw [hr] at h2
    split
    · rename_i heq; simp only [Prod.mk.injEq] at heq; rw [← heq.2]; exact h2
    · rename_i heq; simp only [Prod.mk.injEq] at heq; rw [← heq.2]; exact h2
    · rename_i heq
      simp only [Prod.mk.injEq] at heq
      rw [← heq.2]
      split
      · split <;> exact h2
      · exact h2
  · unfold viewCmd viewCmdV
    rw [h3]
    rcases hr : readTable sys p none e n w with ⟨r, w1⟩
    simp only
    cases r with
    | error e => cases e <;> rfl
    | ok rows =>
      simp only
      split
      · cases viewTranspose rows <;> rfl
      · rfl

theorem louder_handlePath (sys : Sys) (pr : Printer) (v : Bool) (a : StdArgs) (p : Path) (o : Option Path)
    (e : Option Str) : Louder (handlePath sys a p o e) (handlePathV sys pr v a p o e) := by
  unfold handlePath handlePathV
  cases truthy e
  all_goals
    refine Louder.bind (by first | exact louder_getEncoding sys p | exact louder_pure _) fun enc => ?_
    refine (louder_detectDialect sys pr v p a.numChars enc _ _).bind fun r => ?_
    cases r with
    | none => exact louder_pure _
    | some d =>
      simp only
      split
      · exact louder_inPlace sys _ _ _ _ _
      · cases o
        · exact louder_toStdout sys _ _ _ _
        · exact louder_toFile sys _ _ _ _ _ _

theorem louder_handleLoop (sys : Sys) (pr : Printer) (v : Bool) (a : StdArgs) :
    ∀ (l : List (Path × Option Path × Option Str)) (n : Nat), Louder (handleLoop sys a l n) (handleLoopV sys pr v a l n)
  | [], _ => louder_pure _
  | (p, o, e) :: rest, n => by
    unfold handleLoop handleLoopV
    refine (louder_handlePath sys pr v a p o e).bind fun r => ?_
    simp only
    split
    · exact louder_pure _
    · exact louder_handleLoop sys pr v a rest _

theorem louder_standardize (sys : Sys) (pr : Printer) (v : Bool) (a : StdArgs) :
    Louder (standardize sys a) (standardizeV sys pr v a) := by
  unfold standardize standardizeV
  generalize (if a.outputs.length = 0 then a.paths.map (fun _ => none) else a.outputs.map some) = outs
  generalize (if a.encodings.length = 0 then a.paths.map (fun _ => none) else a.encodings.map some) = encs
  split
  · exact louder_pure _
  · simp only
    split
    · exact louder_pure _
    · match encs with
      | [e] => exact louder_handleLoop sys pr v a _ _
      | [] =>
        simp only
        split
        · exact louder_pure _
        · exact louder_handleLoop sys pr v a _ _
      | e :: e' :: r =>
        simp only
        split
        · exact louder_pure _
        · exact louder_handleLoop sys pr v a _ _

/-! ## The lines -/

theorem scoreLoopV_lines (pr : Printer) {pat : SimpleDialect → Except PyExc ℚ}
    {typ : TypeCache → SimpleDialect → Except PyExc ℚ × TypeCache} {skip : Bool} :
    ∀ (ds : List SimpleDialect) (inc : Option ℚ) (cache : TypeCache) (scores l : List (SimpleDialect × ConsistencyScore)),
      ds.Nodup → (∀ d ∈ ds, d ∉ scores.map (·.1)) → (scoreLoop pat typ skip ds inc cache scores).1 = .ok l →
      ∃ l', l = scores ++ l' ∧
        (scoreLoopV pr true pat typ skip ds inc cache scores).2 = l'.map fun p => scoreLine pr p.1 p.2
  | [], _, _, scores, l, _, _, h => by
    simp only [scoreLoop, Except.ok.injEq] at h
    exact ⟨[], by simp [h], rfl⟩
  | d :: ds, inc, cache, scores, l, hn, hd, h => by
    simp only [List.nodup_cons] at hn
    have hdict : ∀ s : ConsistencyScore, dictSet scores d s = scores ++ [(d, s)] :=
      fun s => dictSet_append _ _ _ (hd d (by simp))
    have hnew : ∀ s : ConsistencyScore, ∀ x ∈ ds, x ∉ (dictSet scores d s).map (·.1) := by
      intro s x hx
      rw [hdict]
      simp only [List.map_append, List.map_cons, List.map_nil, List.mem_append, List.mem_singleton, not_or]
      exact ⟨hd x (by simp [hx]), fun h => hn.1 (h ▸ hx)⟩
    rw [scoreLoop] at h
    rw [scoreLoopV]
    cases hp : pat d with
    | error e => rw [hp] at h; cases h
    | ok P =>
      rw [hp] at h
      simp only at h ⊢
      split at h
      · rename_i hb
        obtain ⟨l', h1, h2⟩ := scoreLoopV_lines pr ds _ _ _ l hn.2 (hnew _) h
        rw [if_pos hb]
        exact ⟨(d, ⟨P, none, none⟩) :: l', by rw [h1, hdict, List.append_assoc]; rfl, by simp [say, h2]⟩
      · rename_i hb
        rw [if_neg hb]
        rcases ht : typ cache d with ⟨_ | T, c'⟩
        · rw [ht] at h; cases h
        · rw [ht] at h
          simp only at h ⊢
          obtain ⟨l', h1, h2⟩ := scoreLoopV_lines pr ds _ _ _ l hn.2 (hnew _) h
          exact ⟨(d, ⟨P, some T, some (fl (P * T))⟩) :: l', by rw [h1, hdict, List.append_assoc]; rfl, by simp [say, h2]⟩

end Clever
