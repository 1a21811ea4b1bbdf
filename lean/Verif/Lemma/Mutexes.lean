import Lean.Elab.Tactic
import Verif.Model.Mutexes

namespace Conman

open Spec Mx

/-! ### The order of the mutexes -/

/-- The place of a mutex in the order in which they are taken. -/
def lkRank : Lk → Nat
  | .objs => 0
  | .inev => 1
  | .ipmi _ => 2
  | .buf _ => 3
  | .readers _ => 4
  | .writers _ => 4
  | .lst _ => 4
  | .tpoll => 5
  | .freeLists => 5
  | .freeNodes => 5
  | .freeIters => 5
  | .hostent => 5
  | .localtime => 6

/-- One action of a thread that holds `h`: what it holds afterwards, or nothing
    if the action breaks the discipline. -/
def lkDo (h : List Lk) : LAct → Option (List Lk)
  | .acq m =>
    if (∀ x ∈ h, lkRank x < lkRank m) ∧ (m = .hostent → h = []) then some (m :: h)
    else none
  | .rel m => if m ∈ h then some (h.erase m) else none
  | .wait .peer => if h = [] then some h else none
  | .wait .lookup => if h = [.hostent] then some h else none
  | .use m => if m ∈ h then some h else none
  | .raw _ => some h

/-- A sequence of actions. -/
def lkRun : List Lk → List LAct → Option (List Lk)
  | h, [] => some h
  | h, a :: r => (lkDo h a).bind fun h' => lkRun h' r

theorem lkRun_append (h : List Lk) (a b : List LAct) :
    lkRun h (a ++ b) = (lkRun h a).bind fun h' => lkRun h' b := by
  induction a generalizing h with
  | nil => rfl
  | cons x a ih =>
    simp only [List.cons_append, lkRun]
    cases lkDo h x with
    | none => rfl
    | some h' => simp [ih]

/-- Every sequence of `p`, by a thread that holds `h`, keeps the discipline and
    leaves the thread with `h'`. -/
def LkOk (h : List Lk) (p : LP) (h' : List Lk) : Prop :=
  ∀ tr, LpRun p tr → lkRun h tr = some h'

theorem LkOk.skip {h} : LkOk h .skip h := by
  intro tr r; cases r; rfl

theorem LkOk.seq {h h1 h2 p q} (a : LkOk h p h1) (b : LkOk h1 q h2) :
    LkOk h (p ⨟ q) h2 := by
  intro tr r
  cases r with
  | seq r1 r2 => rw [lkRun_append, a _ r1]; exact b _ r2

theorem LkOk.alt {h h' p q} (a : LkOk h p h') (b : LkOk h q h') :
    LkOk h (p ⊔ q) h' := by
  intro tr r
  cases r with
  | altL r => exact a _ r
  | altR r => exact b _ r

theorem LkOk.star {h p} (a : LkOk h p h) : LkOk h (.star p) h := by
  intro tr r
  generalize hq : LP.star p = q at r
  induction r with
  | star0 => rfl
  | starS r1 _ _ ih2 =>
    cases hq
    rw [lkRun_append, a _ r1]; exact ih2 rfl
  | _ => cases hq

theorem LkOk.any {h h' f} (a : ∀ n, LkOk h (f n) h') : LkOk h (.any f) h' := by
  intro tr r
  cases r with
  | any n r => exact a n _ r

/-- All of `h` come before place `r`. -/
def below (r : Nat) (h : List Lk) : Prop := ∀ x ∈ h, lkRank x < r

theorem below_nil {r} : below r [] := by intro x hx; cases hx

theorem below_cons {r m h} (a : lkRank m < r) (b : below r h) : below r (m :: h) := by
  intro x hx
  cases hx with
  | head => exact a
  | tail _ hx => exact b x hx

theorem below_mono {r r' h} (b : below r h) (a : r ≤ r') : below r' h :=
  fun x hx => Nat.lt_of_lt_of_le (b x hx) a

theorem LkOk.lock {h m} (b : below (lkRank m) h) (n : m ≠ .hostent) :
    LkOk h (lock m) (m :: h) := by
  intro tr r
  cases r
  have : (∀ x ∈ h, lkRank x < lkRank m) ∧ (m = .hostent → h = []) :=
    ⟨b, fun e => absurd e n⟩
  simp only [lkRun, lkDo, if_pos this, Option.bind_some]

theorem LkOk.lockHost : LkOk [] (Mx.lock .hostent) [.hostent] := by
  intro tr r
  cases r
  decide

theorem LkOk.unlock {h m} : LkOk (m :: h) (Mx.unlock m) h := by
  intro tr r
  cases r
  simp [lkRun, lkDo]

theorem LkOk.touch {h m} : LkOk (m :: h) (Mx.touch m) (m :: h) := by
  intro tr r
  cases r
  simp [lkRun, lkDo]

theorem LkOk.touchBare {h m} : LkOk h (Mx.touchBare m) h := by
  intro tr r
  cases r
  rfl

theorem LkOk.waitPeer : LkOk [] Mx.waitPeer [] := by
  intro tr r
  cases r
  rfl

theorem LkOk.waitLookup : LkOk [.hostent] Mx.waitLookup [.hostent] := by
  intro tr r
  cases r
  decide

theorem LkOk.opt {h p} (a : LkOk h p h) : LkOk h (Mx.opt p) h :=
  LkOk.alt LkOk.skip a

theorem LkOk.crit {h m p} (b : below (lkRank m) h) (n : m ≠ .hostent)
    (a : LkOk (m :: h) p (m :: h)) : LkOk h (Mx.crit m p) h :=
  (LkOk.lock b n).seq (LkOk.touch.seq (a.seq LkOk.unlock))

/-- Goals about places. -/
syntax "bl" : tactic
macro_rules
  | `(tactic| bl) => `(tactic| first
    | assumption
    | exact below_nil
    | exact below_mono (by assumption) (by simp [lkRank]; done)
    | exact below_cons (by simp [lkRank]; done) (by bl))

open Lean Elab Tactic Meta in
/-- One step of a proof that a program keeps the discipline: the lemma about the
    function or the form of the program is applied. -/
elab "lk1" : tactic => do
  let g ← getMainGoal
  let t := (← instantiateMVars (← g.getType)).consumeMData
  if t.isAppOfArity ``LkOk 3 then
    if (← observing? (evalTactic (← `(tactic| assumption)))).isSome then return
    match t.appFn!.appArg!.getAppFn.constName? with
    | some ``LP.seq => evalTactic (← `(tactic| apply LkOk.seq))
    | some ``LP.alt => evalTactic (← `(tactic| apply LkOk.alt))
    | some ``LP.star => evalTactic (← `(tactic| apply LkOk.star))
    | some ``LP.any => evalTactic (← `(tactic| (apply LkOk.any; intro _)))
    | some ``LP.skip => evalTactic (← `(tactic| exact LkOk.skip))
    | some ``Conman.Mx.lock =>
      evalTactic (← `(tactic| first | exact LkOk.lockHost | apply LkOk.lock))
    | some (.str _ n) =>
      let a := Name.mkStr `Conman.LkOk n
      let b := Name.mkStr `Conman ("ok_" ++ n)
      let c := if (← getEnv).contains a then a else b
      evalTactic (← `(tactic| apply $(mkIdent c)))
    | _ => throwError "no rule"
  else if t.isAppOf ``below then evalTactic (← `(tactic| focus bl))
  else evalTactic (← `(tactic| first | assumption | focus (simp [lkRank]; done)))

/-- All steps of such a proof. -/
macro "lk" : tactic => `(tactic| (repeat lk1))

theorem ok_listAlloc {h} (b : below 5 h) : LkOk h listAlloc h := by
  rw [listAlloc]; lk

theorem ok_listNodeAlloc {h} (b : below 5 h) : LkOk h listNodeAlloc h := by
  rw [listNodeAlloc]; lk

theorem ok_listIteratorAlloc {h} (b : below 5 h) : LkOk h listIteratorAlloc h := by
  rw [listIteratorAlloc]; lk

theorem ok_listFree {h} (b : below 5 h) : LkOk h listFree h := by
  rw [listFree]; lk

theorem ok_listNodeFree {h} (b : below 5 h) : LkOk h listNodeFree h := by
  rw [listNodeFree]; lk

theorem ok_listIteratorFree {h} (b : below 5 h) : LkOk h listIteratorFree h := by
  rw [listIteratorFree]; lk

theorem ok_listNodeCreate {h} (b : below 5 h) : LkOk h listNodeCreate h := by
  rw [listNodeCreate]; lk

theorem ok_listNodeDestroy {h} (b : below 5 h) : LkOk h listNodeDestroy h := by
  rw [listNodeDestroy]; lk

theorem ok_listCreate {h} (b : below 5 h) : LkOk h listCreate h := by
  rw [listCreate]; lk

theorem ok_listDestroy {m h del} (r : lkRank m ≤ 4) (b : below (lkRank m) h)
    (d : LkOk (m :: h) del (m :: h)) : LkOk h (listDestroy m del) h := by
  have n : m ≠ .hostent := by intro e; subst e; revert r; decide
  have b5 : below 5 (m :: h) := below_cons (by omega) (below_mono b (by omega))
  have b5' : below 5 h := below_mono b (by omega)
  rw [listDestroy]; lk

theorem ok_listLook {m h} (r : lkRank m ≤ 4) (b : below (lkRank m) h) :
    LkOk h (listLook m) h := by
  have n : m ≠ .hostent := by intro e; subst e; revert r; decide
  have b5 : below 5 (m :: h) := below_cons (by omega) (below_mono b (by omega))
  have b5' : below 5 h := below_mono b (by omega)
  rw [listLook]; lk

theorem ok_listAppend {m h} (r : lkRank m ≤ 4) (b : below (lkRank m) h) :
    LkOk h (listAppend m) h := by
  have n : m ≠ .hostent := by intro e; subst e; revert r; decide
  have b5 : below 5 (m :: h) := below_cons (by omega) (below_mono b (by omega))
  have b5' : below 5 h := below_mono b (by omega)
  rw [listAppend]; lk

theorem ok_listDeleteAll {m h del} (r : lkRank m ≤ 4) (b : below (lkRank m) h)
    (d : LkOk (m :: h) del (m :: h)) : LkOk h (listDeleteAll m del) h := by
  have n : m ≠ .hostent := by intro e; subst e; revert r; decide
  have b5 : below 5 (m :: h) := below_cons (by omega) (below_mono b (by omega))
  have b5' : below 5 h := below_mono b (by omega)
  rw [listDeleteAll]; lk

theorem ok_listPop {m h} (r : lkRank m ≤ 4) (b : below (lkRank m) h) :
    LkOk h (listPop m) h := by
  have n : m ≠ .hostent := by intro e; subst e; revert r; decide
  have b5 : below 5 (m :: h) := below_cons (by omega) (below_mono b (by omega))
  have b5' : below 5 h := below_mono b (by omega)
  rw [listPop]; lk

theorem ok_iterCreate {m h} (r : lkRank m ≤ 4) (b : below (lkRank m) h) :
    LkOk h (iterCreate m) h := by
  have n : m ≠ .hostent := by intro e; subst e; revert r; decide
  have b5 : below 5 (m :: h) := below_cons (by omega) (below_mono b (by omega))
  have b5' : below 5 h := below_mono b (by omega)
  rw [iterCreate]; lk

theorem ok_iterReset {m h} (r : lkRank m ≤ 4) (b : below (lkRank m) h) :
    LkOk h (iterReset m) h := by
  have n : m ≠ .hostent := by intro e; subst e; revert r; decide
  have b5 : below 5 (m :: h) := below_cons (by omega) (below_mono b (by omega))
  have b5' : below 5 h := below_mono b (by omega)
  rw [iterReset]; lk

theorem ok_iterDestroy {m h} (r : lkRank m ≤ 4) (b : below (lkRank m) h) :
    LkOk h (iterDestroy m) h := by
  have n : m ≠ .hostent := by intro e; subst e; revert r; decide
  have b5 : below 5 (m :: h) := below_cons (by omega) (below_mono b (by omega))
  have b5' : below 5 h := below_mono b (by omega)
  rw [iterDestroy]; lk

theorem ok_listNext {m h} (r : lkRank m ≤ 4) (b : below (lkRank m) h) :
    LkOk h (listNext m) h := by
  have n : m ≠ .hostent := by intro e; subst e; revert r; decide
  have b5 : below 5 (m :: h) := below_cons (by omega) (below_mono b (by omega))
  have b5' : below 5 h := below_mono b (by omega)
  rw [listNext]; lk

theorem ok_listInsert {m h} (r : lkRank m ≤ 4) (b : below (lkRank m) h) :
    LkOk h (listInsert m) h := by
  have n : m ≠ .hostent := by intro e; subst e; revert r; decide
  have b5 : below 5 (m :: h) := below_cons (by omega) (below_mono b (by omega))
  have b5' : below 5 h := below_mono b (by omega)
  rw [listInsert]; lk

theorem ok_listFind {m h} (r : lkRank m ≤ 4) (b : below (lkRank m) h) :
    LkOk h (listFind m) h := by
  have n : m ≠ .hostent := by intro e; subst e; revert r; decide
  have b5 : below 5 (m :: h) := below_cons (by omega) (below_mono b (by omega))
  have b5' : below 5 h := below_mono b (by omega)
  rw [listFind]; lk

theorem ok_listRemove {m h} (r : lkRank m ≤ 4) (b : below (lkRank m) h) :
    LkOk h (listRemove m) h := by
  have n : m ≠ .hostent := by intro e; subst e; revert r; decide
  have b5 : below 5 (m :: h) := below_cons (by omega) (below_mono b (by omega))
  have b5' : below 5 h := below_mono b (by omega)
  rw [listRemove]; lk

theorem ok_listDelete {m h del} (r : lkRank m ≤ 4) (b : below (lkRank m) h)
    (d : LkOk h del h) : LkOk h (listDelete m del) h := by
  rw [listDelete]
  exact (ok_listRemove r b).seq (LkOk.opt d)

theorem ok_forEach {m h body} (r : lkRank m ≤ 4) (b : below (lkRank m) h)
    (d : LkOk h body h) : LkOk h (forEach m body) h := by
  rw [forEach]
  exact (ok_iterCreate r b).seq ((LkOk.star ((ok_listNext r b).seq d)).seq
    ((LkOk.opt (ok_listNext r b)).seq (ok_iterDestroy r b)))

theorem ok_getLocaltime {h} (b : below 6 h) : LkOk h getLocaltime h := by
  rw [getLocaltime]; lk

theorem ok_logMsg {h} (b : below 6 h) : LkOk h logMsg h := by
  rw [logMsg]; lk

theorem ok_timeString {h} (b : below 6 h) : LkOk h timeString h := by
  rw [timeString]; lk

theorem ok_getHostBy : LkOk [] getHostBy [] := by
  rw [getHostBy]; lk

theorem ok_hostNameToAddr4 : LkOk [] hostNameToAddr4 [] := by
  rw [hostNameToAddr4]; lk

theorem ok_hostAddr4ToName : LkOk [] hostAddr4ToName [] := by
  rw [hostAddr4ToName]; lk

theorem ok_tpollClear {h} (b : below 5 h) : LkOk h tpollClear h := by
  rw [tpollClear]; lk

theorem ok_tpollIsSet {h} (b : below 5 h) : LkOk h tpollIsSet h := by
  rw [tpollIsSet]; lk

theorem ok_tpollSet {h} (b : below 5 h) : LkOk h tpollSet h := by
  rw [tpollSet]; lk

theorem ok_tpollTimeout {h} (b : below 5 h) : LkOk h tpollTimeout h := by
  rw [tpollTimeout]; lk

theorem ok_tpollCancel {h} (b : below 5 h) : LkOk h tpollCancel h := by
  rw [tpollCancel]; lk

theorem ok_tpollDestroy {h} (b : below 5 h) : LkOk h tpollDestroy h := by
  rw [tpollDestroy]; lk

theorem ok_tpollDispatch {cb} (d : LkOk [] cb []) :
    LkOk [.tpoll] (tpollDispatch cb) [.tpoll] := by
  rw [tpollDispatch]
  exact LkOk.star (LkOk.unlock.seq (d.seq
    ((LkOk.lock below_nil (by intro e; cases e)).seq LkOk.touch)))

theorem ok_tpollPoll : LkOk [.tpoll] tpollPoll [.tpoll] := by
  rw [tpollPoll]; lk

theorem ok_tpollRun {cb} (d : LkOk [] cb []) : LkOk [] (tpollRun cb) [] := by
  rw [tpollRun]
  exact (LkOk.lock below_nil (by intro e; cases e)).seq (LkOk.touch.seq
    ((LkOk.star ((ok_tpollDispatch d).seq ok_tpollPoll)).seq
      ((ok_tpollDispatch d).seq (ok_tpollPoll.seq LkOk.unlock))))

theorem ok_createObj {h} (b : below 5 h) : LkOk h createObj h := by
  rw [createObj]; lk

theorem ok_formatObjString {h} (b : below 6 h) : LkOk h formatObjString h := by
  rw [formatObjString]; lk

theorem ok_writeObjData (o : Nat) {h} (b : below 3 h) : LkOk h (writeObjData o) h := by
  rw [writeObjData]; lk

theorem ok_writeLogData (o : Nat) {h} (b : below 3 h) : LkOk h (writeLogData o) h := by
  rw [writeLogData]; lk

theorem ok_notifyConsoleObjs (o : Nat) {h} (b : below 3 h) : LkOk h (notifyConsoleObjs o) h := by
  rw [notifyConsoleObjs]; lk

theorem ok_writeNotifyMsg (o : Nat) {h} (b : below 3 h) : LkOk h (writeNotifyMsg o) h := by
  rw [writeNotifyMsg]; lk

theorem ok_unlinkObjs (src dst : Nat) {h} (b : below 3 h) : LkOk h (unlinkObjs src dst) h := by
  rw [unlinkObjs]; lk

theorem ok_unlinkObj (o : Nat) {h} (b : below 3 h) : LkOk h (unlinkObj o) h := by
  rw [unlinkObj]; lk

theorem ok_linkObjs (src dst : Nat) {h} (b : below 3 h) : LkOk h (linkObjs src dst) h := by
  rw [linkObjs]; lk

theorem ok_createClientObj {h} (b : below 0 h) : LkOk h createClientObj h := by
  rw [createClientObj]; lk

theorem ok_openLogfileObj (o : Nat) {h} (b : below 3 h) : LkOk h (openLogfileObj o) h := by
  rw [openLogfileObj]; lk

theorem ok_checkProcessProg (o : Nat) {h} (b : below 3 h) : LkOk h (checkProcessProg o) h := by
  rw [checkProcessProg]; lk

theorem ok_connectProcessObj (o : Nat) {h} (b : below 3 h) : LkOk h (connectProcessObj o) h := by
  rw [connectProcessObj]; lk

theorem ok_disconnectProcessObj (o : Nat) {h} (b : below 3 h) : LkOk h (disconnectProcessObj o) h := by
  rw [disconnectProcessObj]; lk

theorem ok_openProcessObj (o : Nat) {h} (b : below 3 h) : LkOk h (openProcessObj o) h := by
  rw [openProcessObj]; lk

theorem ok_openSerialObj (o : Nat) {h} (b : below 3 h) : LkOk h (openSerialObj o) h := by
  rw [openSerialObj]; lk

theorem ok_sendTelnetCmd (o : Nat) {h} (b : below 3 h) : LkOk h (sendTelnetCmd o) h := by
  rw [sendTelnetCmd]; lk

theorem ok_processTelnetEscapes (o : Nat) {h} (b : below 3 h) : LkOk h (processTelnetEscapes o) h := by
  rw [processTelnetEscapes]; lk

theorem ok_disconnectTelnetObj (o : Nat) {h} (b : below 3 h) : LkOk h (disconnectTelnetObj o) h := by
  rw [disconnectTelnetObj]; lk

theorem ok_connectTelnetObj (o : Nat) : LkOk [] (connectTelnetObj o) [] := by
  rw [connectTelnetObj]; lk

theorem ok_openTelnetObj (o : Nat) : LkOk [] (openTelnetObj o) [] := by
  rw [openTelnetObj]; lk

theorem ok_disconnectUnixsockObj (o : Nat) {h} (b : below 3 h) : LkOk h (disconnectUnixsockObj o) h := by
  rw [disconnectUnixsockObj]; lk

theorem ok_connectUnixsockObj (o : Nat) {h} (b : below 3 h) : LkOk h (connectUnixsockObj o) h := by
  rw [connectUnixsockObj]; lk

theorem ok_openUnixsockObj (o : Nat) {h} (b : below 3 h) : LkOk h (openUnixsockObj o) h := by
  rw [openUnixsockObj]; lk

theorem ok_openTestObj {h} (b : below 5 h) : LkOk h openTestObj h := by
  rw [openTestObj]; lk

theorem ok_readTestObj (o : Nat) {h} (b : below 3 h) : LkOk h (readTestObj o) h := by
  rw [readTestObj]; lk

theorem ok_createIpmiCtx {h} (b : below 7 h) : LkOk h createIpmiCtx h := by
  rw [createIpmiCtx]; lk

theorem ok_initiateIpmiConnect {h} (b : below 5 h) : LkOk h initiateIpmiConnect h := by
  rw [initiateIpmiConnect]; lk

theorem ok_completeIpmiConnect (o : Nat) {h} (b : below 3 h) : LkOk h (completeIpmiConnect o) h := by
  rw [completeIpmiConnect]; lk

theorem ok_failIpmiConnect {h} (b : below 5 h) : LkOk h failIpmiConnect h := by
  rw [failIpmiConnect]; lk

theorem ok_connectIpmiObj (o : Nat) {h} (b : below 2 h) : LkOk h (connectIpmiObj o) h := by
  rw [connectIpmiObj]; lk

theorem ok_disconnectIpmiObj (o : Nat) {h} (b : below 2 h) : LkOk h (disconnectIpmiObj o) h := by
  rw [disconnectIpmiObj]; lk

theorem ok_openIpmiObj (o : Nat) {h} (b : below 2 h) : LkOk h (openIpmiObj o) h := by
  rw [openIpmiObj]; lk

theorem ok_resetIpmiDelay (o : Nat) {h} (b : below 2 h) : LkOk h (resetIpmiDelay o) h := by
  rw [resetIpmiDelay]; lk

theorem ok_sendIpmiBreak (o : Nat) {h} (b : below 2 h) : LkOk h (sendIpmiBreak o) h := by
  rw [sendIpmiBreak]; lk

theorem ok_reopenObj (o : Nat) : LkOk [] (reopenObj o) [] := by
  rw [reopenObj]; lk

theorem ok_shutdownObj (o : Nat) : LkOk [] (shutdownObj o) [] := by
  rw [shutdownObj]; lk

theorem ok_ineventFini {h} (b : below 1 h) : LkOk h ineventFini h := by
  rw [ineventFini]; lk

theorem ok_ineventAdd {h} (b : below 1 h) : LkOk h ineventAdd h := by
  rw [ineventAdd]; lk

theorem ok_ineventRemove {h} (b : below 1 h) : LkOk h ineventRemove h := by
  rw [ineventRemove]; lk

theorem ok_ineventProcess : LkOk [] ineventProcess [] := by
  rw [ineventProcess]; lk

theorem ok_createReq {h} (b : below 5 h) : LkOk h createReq h := by
  rw [createReq]; lk

theorem ok_destroyReq (n : Nat) {h} (b : below 4 h) : LkOk h (destroyReq n) h := by
  rw [destroyReq]; lk

theorem ok_destroyObj (o : Nat) {h} (b : below 1 h) : LkOk h (destroyObj o) h := by
  rw [destroyObj]; lk

theorem ok_performSerialBreak (c : Nat) {h} (b : below 2 h) : LkOk h (performSerialBreak c) h := by
  rw [performSerialBreak]; lk

theorem ok_performDelCharSeq (c : Nat) {h} (b : below 2 h) : LkOk h (performDelCharSeq c) h := by
  rw [performDelCharSeq]; lk

theorem ok_performConsoleWriterLinkage (c : Nat) {h} (b : below 2 h) : LkOk h (performConsoleWriterLinkage c) h := by
  rw [performConsoleWriterLinkage]; lk

theorem ok_performLogReplay (c : Nat) {h} (b : below 2 h) : LkOk h (performLogReplay c) h := by
  rw [performLogReplay]; lk

theorem ok_performQuietToggle (c : Nat) {h} (b : below 2 h) : LkOk h (performQuietToggle c) h := by
  rw [performQuietToggle]; lk

theorem ok_performReset (c : Nat) {h} (b : below 2 h) : LkOk h (performReset c) h := by
  rw [performReset]; lk

theorem ok_killResetCmd {h} (b : below 6 h) : LkOk h killResetCmd h := by
  rw [killResetCmd]; lk

theorem ok_performSuspend {h} (b : below 5 h) : LkOk h performSuspend h := by
  rw [performSuspend]; lk

theorem ok_processClientEscapes (c : Nat) {h} (b : below 2 h) : LkOk h (processClientEscapes c) h := by
  rw [processClientEscapes]; lk

theorem ok_readFromObj (o : Nat) : LkOk [] (readFromObj o) [] := by
  rw [readFromObj]; lk

theorem ok_writeToObj (o : Nat) : LkOk [] (writeToObj o) [] := by
  rw [writeToObj]; lk

theorem ok_scheduleTimestamp {h} (b : below 5 h) : LkOk h scheduleTimestamp h := by
  rw [scheduleTimestamp]; lk

theorem ok_timestampLogfiles {h} (b : below 0 h) : LkOk h timestampLogfiles h := by
  rw [timestampLogfiles]; lk

theorem ok_openDaemonLogfile {h} (b : below 6 h) : LkOk h openDaemonLogfile h := by
  rw [openDaemonLogfile]; lk

theorem ok_reopenLogfiles {h} (b : below 0 h) : LkOk h reopenLogfiles h := by
  rw [reopenLogfiles]; lk

theorem ok_acceptClient {h} (b : below 7 h) : LkOk h acceptClient h := by
  rw [acceptClient]; lk

theorem ok_timerCallback : LkOk [] timerCallback [] := by
  rw [timerCallback]; lk

theorem ok_muxObj (o : Nat) : LkOk [] (muxObj o) [] := by
  rw [muxObj]; lk

theorem ok_muxIo : LkOk [] muxIo [] := by
  rw [muxIo]; lk

theorem ok_createConfObj {h} (b : below 0 h) : LkOk h createConfObj h := by
  rw [createConfObj]; lk

theorem ok_processConfig {h} (b : below 0 h) : LkOk h processConfig h := by
  rw [processConfig]; lk

theorem ok_openObjs : LkOk [] openObjs [] := by
  rw [openObjs]; lk

theorem ok_ipmiInit {h} (b : below 6 h) : LkOk h ipmiInit h := by
  rw [ipmiInit]; lk

theorem ok_ipmiFini : LkOk [] ipmiFini [] := by
  rw [ipmiFini]; lk

theorem ok_destroyServerConf {h} (b : below 0 h) : LkOk h destroyServerConf h := by
  rw [destroyServerConf]; lk

theorem ok_mainThread : LkOk [] mainThread [] := by
  rw [mainThread]; lk

theorem ok_resolveAddr : LkOk [] resolveAddr [] := by
  rw [resolveAddr]; lk

theorem ok_sendRsp (n : Nat) : LkOk [] (sendRsp n) [] := by
  rw [sendRsp]; lk

theorem ok_recvGreeting (n : Nat) : LkOk [] (recvGreeting n) [] := by
  rw [recvGreeting]; lk

theorem ok_recvReq (n : Nat) : LkOk [] (recvReq n) [] := by
  rw [recvReq]; lk

theorem ok_queryGlob (n m : Nat) : LkOk [] (queryGlob n m) [] := by
  rw [queryGlob]; lk

theorem ok_queryRegex (n m : Nat) : LkOk [] (queryRegex n m) [] := by
  rw [queryRegex]; lk

theorem ok_queryConsoles (n m : Nat) : LkOk [] (queryConsoles n m) [] := by
  rw [queryConsoles]; lk

theorem ok_checkTooMany (m : Nat) : LkOk [] (checkTooMany m) [] := by
  rw [checkTooMany]; lk

theorem ok_checkBusy (m b : Nat) : LkOk [] (checkBusy m b) [] := by
  rw [checkBusy]; lk

theorem ok_validateReq (m b : Nat) : LkOk [] (validateReq m b) [] := by
  rw [validateReq]; lk

theorem ok_checkConsoleState (o c : Nat) : LkOk [] (checkConsoleState o c) [] := by
  rw [checkConsoleState]; lk

theorem ok_performQueryCmd (m : Nat) : LkOk [] (performQueryCmd m) [] := by
  rw [performQueryCmd]; lk

theorem ok_performMonitorCmd (m : Nat) : LkOk [] (performMonitorCmd m) [] := by
  rw [performMonitorCmd]; lk

theorem ok_performConnectCmd (m : Nat) : LkOk [] (performConnectCmd m) [] := by
  rw [performConnectCmd]; lk

theorem ok_processClient : LkOk [] processClient [] := by
  rw [processClient]; lk

theorem ok_engineThread : LkOk [] engineThread [] := by
  rw [engineThread]; lk

/-! ### Any number of threads -/

/-- What holds of all threads at all times. -/
structure LkInv (s : List Th) : Prop where
  ok : ∀ t ∈ s, lkRun t.held t.todo = some []
  once : (s.flatMap Th.held).Nodup

theorem lkDo_acq {h h' m} (e : lkDo h (.acq m) = some h') :
    h' = m :: h ∧ (∀ x ∈ h, lkRank x < lkRank m) ∧ (m = .hostent → h = []) := by
  simp only [lkDo] at e
  split at e
  · rename_i c
    injection e with e
    exact ⟨e.symm, c⟩
  · cases e

theorem lkDo_rel {h h' m} (e : lkDo h (.rel m) = some h') :
    h' = h.erase m ∧ m ∈ h := by
  simp only [lkDo] at e
  split at e
  · rename_i c
    injection e with e
    exact ⟨e.symm, c⟩
  · cases e

theorem lkDo_use {h h' m} (e : lkDo h (.use m) = some h') : h' = h ∧ m ∈ h := by
  simp only [lkDo] at e
  split at e
  · rename_i c
    injection e with e
    exact ⟨e.symm, c⟩
  · cases e

theorem lkDo_peer {h h'} (e : lkDo h (.wait .peer) = some h') : h' = h ∧ h = [] := by
  simp only [lkDo] at e
  split at e
  · rename_i c
    injection e with e
    exact ⟨e.symm, c⟩
  · cases e

theorem lkDo_lookup {h h'} (e : lkDo h (.wait .lookup) = some h') :
    h' = h ∧ h = [.hostent] := by
  simp only [lkDo] at e
  split at e
  · rename_i c
    injection e with e
    exact ⟨e.symm, c⟩
  · cases e

theorem lkRun_cons {h a r z} (e : lkRun h (a :: r) = some z) :
    ∃ h', lkDo h a = some h' ∧ lkRun h' r = some z := by
  simp only [lkRun] at e
  cases d : lkDo h a with
  | none => rw [d] at e; cases e
  | some h' => rw [d] at e; exact ⟨h', rfl, e⟩

theorem LkInv.replace {a b t t'} (i : LkInv (a ++ t :: b))
    (ok : lkRun t'.held t'.todo = some [])
    (once : ((a ++ t' :: b).flatMap Th.held).Nodup) : LkInv (a ++ t' :: b) := by
  refine ⟨?_, once⟩
  intro u hu
  rcases List.mem_append.mp hu with h | h
  · exact i.ok u (List.mem_append_left _ h)
  · cases h with
    | head => exact ok
    | tail _ h => exact i.ok u (List.mem_append_right _ (List.mem_cons_of_mem _ h))

theorem LkInv.inner {s s'} (i : LkInv s) (r : Inner s s') : LkInv s' := by
  cases r with
  | @acq a b r h m nb =>
    obtain ⟨h', d, e⟩ := lkRun_cons (i.ok ⟨.acq m :: r, h⟩ (by simp))
    obtain ⟨rfl, _⟩ := lkDo_acq d
    refine i.replace e ?_
    have o := i.once
    have nm : m ∉ (a ++ ⟨.acq m :: r, h⟩ :: b).flatMap Th.held := by
      intro hm
      obtain ⟨t, ht, hm⟩ := List.mem_flatMap.mp hm
      exact nb t ht hm
    simp only [List.flatMap_append, List.flatMap_cons] at o nm ⊢
    have p : (a.flatMap Th.held ++ (m :: h ++ b.flatMap Th.held)).Perm
        (m :: (a.flatMap Th.held ++ (h ++ b.flatMap Th.held))) :=
      List.perm_middle
    exact p.nodup_iff.mpr (List.nodup_cons.mpr ⟨nm, o⟩)
  | @rel a b r h m hm =>
    obtain ⟨h', d, e⟩ := lkRun_cons (i.ok ⟨.rel m :: r, h⟩ (by simp))
    obtain ⟨rfl, _⟩ := lkDo_rel d
    refine i.replace e ?_
    have o := i.once
    simp only [List.flatMap_append, List.flatMap_cons] at o ⊢
    exact List.Nodup.sublist (List.Sublist.append (List.Sublist.refl _)
      (List.Sublist.append List.erase_sublist (List.Sublist.refl _))) o
  | @use a b r h m =>
    obtain ⟨h', d, e⟩ := lkRun_cons (i.ok ⟨.use m :: r, h⟩ (by simp))
    obtain ⟨rfl, _⟩ := lkDo_use d
    exact i.replace e (by have o := i.once; simpa using o)
  | @raw a b r h m =>
    obtain ⟨h', d, e⟩ := lkRun_cons (i.ok ⟨.raw m :: r, h⟩ (by simp))
    cases d
    exact i.replace e (by have o := i.once; simpa using o)

theorem LkInv.thr {s s'} (i : LkInv s) (r : Thr s s') : LkInv s' := by
  cases r with
  | inner r => exact i.inner r
  | @came a b r h e =>
    obtain ⟨h', d, f⟩ := lkRun_cons (i.ok ⟨.wait e :: r, h⟩ (by simp))
    have hh : h' = h := by
      cases e with
      | peer => exact (lkDo_peer d).1
      | lookup => exact (lkDo_lookup d).1
    subst hh
    exact i.replace f (by have o := i.once; simpa using o)

theorem LkInv.threads {s s'} (i : LkInv s) (r : Threads s s') : LkInv s' := by
  induction r with
  | refl => exact i
  | step _ r ih => exact ih.thr r

theorem LkInv.inners {n s s'} (i : LkInv s) (r : Inners n s s') : LkInv s' := by
  induction r with
  | refl => exact i
  | step _ r ih => exact (ih i).inner r

theorem Daemon.inv {s} (d : Daemon s) : LkInv s := by
  obtain ⟨m, cs, es, hm, hc, he, rfl⟩ := d.threads
  refine ⟨?_, ?_⟩
  · intro t ht
    obtain ⟨tr, htr, rfl⟩ := List.mem_map.mp ht
    show lkRun [] tr = some []
    simp only [List.cons_append, List.mem_cons, List.mem_append] at htr
    rcases htr with rfl | h | h
    · exact ok_mainThread _ hm
    · exact ok_processClient _ (hc _ h)
    · exact ok_engineThread _ (he _ h)
  · have : ((m :: cs ++ es).map fresh).flatMap Th.held = [] := by
      simp [List.flatMap_eq_nil_iff, fresh]
    rw [this]; exact List.nodup_nil

/-- A stuck system: a thread that wants a mutex wants the one of the resolver,
    and another awaits the name service with it. -/
theorem LkInv.stuck {s} (i : LkInv s) (st : Spec.stuck s) :
    ∀ k m, 7 - lkRank m ≤ k → ∀ t ∈ s, wants t m →
      m = .hostent ∧ ∃ u ∈ s, awaits u .lookup ∧ u.held = [.hostent] := by
  intro k
  induction k with
  | zero => intro m hk; cases m <;> simp [lkRank] at hk
  | succ k ih =>
    intro m hk t ht ⟨r, tr⟩
    obtain ⟨a, b, rfl⟩ := List.append_of_mem ht
    obtain ⟨todo, held⟩ := t
    simp only at tr
    subst tr
    have nn : ¬ nobody (a ++ ⟨.acq m :: r, held⟩ :: b) m := fun n => st _ (.acq n)
    have : ∃ u ∈ a ++ ⟨.acq m :: r, held⟩ :: b, m ∈ u.held := by
      apply Classical.byContradiction
      intro c
      exact nn fun u hu hm => c ⟨u, hu, hm⟩
    obtain ⟨u, hu, hm⟩ := this
    have ok := i.ok u hu
    generalize hs : a ++ ⟨.acq m :: r, held⟩ :: b = s at *
    obtain ⟨c, d, rfl⟩ := List.append_of_mem hu
    obtain ⟨todo, uh⟩ := u
    cases todo with
    | nil => cases ok; cases hm
    | cons x rest =>
      obtain ⟨h', dd, _⟩ := lkRun_cons ok
      cases x with
      | acq m' =>
        obtain ⟨_, lt, ho⟩ := lkDo_acq dd
        have l := lt m hm
        have := ih m' (by omega) _ hu ⟨rest, rfl⟩
        have e := ho this.1
        dsimp only at hm e
        rw [e] at hm; cases hm
      | rel m' => exact absurd (.rel (lkDo_rel dd).2) (st _)
      | use m' => exact absurd .use (st _)
      | raw m' => exact absurd .raw (st _)
      | wait e =>
        cases e with
        | peer => have := (lkDo_peer dd).2; dsimp only at hm this; rw [this] at hm; cases hm
        | lookup =>
          have := (lkDo_lookup dd).2
          dsimp only at hm this
          have hm' := hm
          rw [this] at hm
          exact ⟨List.mem_singleton.mp hm, _, hu, ⟨rest, rfl⟩, this⟩

/-- How much is left to do. -/
def lkLeft (s : List Th) : Nat := (s.map fun t => t.todo.length).sum

theorem Inner.less {s s'} (r : Inner s s') : lkLeft s' + 1 = lkLeft s := by
  cases r <;> simp [lkLeft] <;> omega

theorem Inners.less {n s s'} (r : Inners n s s') : lkLeft s' + n = lkLeft s := by
  induction r with
  | refl => rfl
  | step _ r ih => have := Inner.less r; omega

theorem Inner.suffix {s s'} (r : Inner s s') {i : Nat} {t : Th} (h : s[i]? = some t) :
    ∃ t', s'[i]? = some t' ∧ t'.todo <:+ t.todo := by
  have aux : ∀ {a b : List Th} {u v : Th}, (a ++ u :: b)[i]? = some t →
      v.todo <:+ u.todo → ∃ t', (a ++ v :: b)[i]? = some t' ∧ t'.todo <:+ t.todo := by
    intro a b u v h sf
    rw [List.getElem?_append] at h
    rw [List.getElem?_append]
    split at h
    · rename_i l; rw [if_pos l]; exact ⟨t, h, List.suffix_refl _⟩
    · rename_i l
      rw [if_neg l]
      cases j : i - a.length with
      | zero =>
        rw [j] at h
        simp only [List.getElem?_cons_zero] at h ⊢
        injection h with h
        subst h
        exact ⟨v, rfl, sf⟩
      | succ j' =>
        rw [j] at h
        simp only [List.getElem?_cons_succ] at h ⊢
        exact ⟨t, h, List.suffix_refl _⟩
  cases r <;> exact aux h (List.suffix_cons _ _)

theorem Inners.suffix {n s s'} (r : Inners n s s') {i : Nat} {t : Th} (h : s[i]? = some t) :
    ∃ t', s'[i]? = some t' ∧ t'.todo <:+ t.todo := by
  induction r with
  | refl => exact ⟨t, h, List.suffix_refl _⟩
  | step _ r ih =>
    obtain ⟨t1, h1, s1⟩ := ih h
    obtain ⟨t2, h2, s2⟩ := Inner.suffix r h1
    exact ⟨t2, h2, s2.trans s1⟩

theorem Inners.threads {n s s' s''} (a : Threads s s') (r : Inners n s' s'') :
    Threads s s'' := by
  induction r with
  | refl => exact a
  | step _ r ih => exact .step (ih a) (.inner r)

/-- There is always a way on to where nothing can be done without the outside. -/
theorem exists_stuck (s : List Th) : ∃ n s', Inners n s s' ∧ Spec.stuck s' := by
  generalize hk : lkLeft s = k
  induction k generalizing s with
  | zero =>
    refine ⟨0, s, .refl, ?_⟩
    intro s' r
    have := Inner.less r
    omega
  | succ k ih =>
    by_cases h : Spec.stuck s
    · exact ⟨0, s, .refl, h⟩
    · have : ∃ s', Inner s s' := by
        apply Classical.byContradiction
        intro c
        exact h fun s' r => c ⟨s', r⟩
      obtain ⟨s1, r1⟩ := this
      obtain ⟨n, s2, r2, st⟩ := ih s1 (by have := Inner.less r1; omega)
      refine ⟨n + 1, s2, ?_, st⟩
      clear st ih hk h
      induction r2 with
      | refl => exact .step .refl r1
      | step _ r ih => exact .step (ih r1) r

/-! ### Examples are computed -/

/-- The sequence of a program chosen by a list of numbers: 0 or another for the
    first or second of two, a number of rounds, an object. -/
def guide : LP → List Nat → List LAct × List Nat
  | .skip, c => ([], c)
  | .act a, c => ([a], c)
  | .seq p q, c =>
    let x := guide p c
    let y := guide q x.2
    (x.1 ++ y.1, y.2)
  | .alt p q, c =>
    if c.headD 0 = 0 then guide p c.tail else guide q c.tail
  | .star p, c =>
    Nat.rec (motive := fun _ => List Nat → List LAct × List Nat) (fun c => ([], c))
      (fun _ f c => let x := guide p c; let y := f x.2; (x.1 ++ y.1, y.2))
      (c.headD 0) c.tail
  | .any f, c => guide (f (c.headD 0)) c.tail

theorem guide_run (p : LP) (c : List Nat) : LpRun p (guide p c).1 := by
  induction p generalizing c with
  | skip => exact .skip
  | act a => exact .act
  | seq p q hp hq => rw [guide]; exact .seq (hp _) (hq _)
  | alt p q hp hq =>
    rw [guide]
    split
    · exact .altL (hp _)
    · exact .altR (hq _)
  | star p hp =>
    rw [guide]
    generalize c.headD 0 = n
    generalize c.tail = c
    induction n generalizing c with
    | zero => exact .star0
    | succ n ih => exact .starS (hp _) (ih _)
  | any f hf => rw [guide]; exact .any _ (hf _ _)

/-- The thread of that number takes a step. -/
def execOne (s : List Th) (i : Nat) : Option (List Th) :=
  match s[i]? with
  | none => none
  | some t =>
    match t.todo with
    | [] => none
    | .acq m :: r => if nobody s m then some (s.set i ⟨r, m :: t.held⟩) else none
    | .rel m :: r => if m ∈ t.held then some (s.set i ⟨r, t.held.erase m⟩) else none
    | _ :: r => some (s.set i ⟨r, t.held⟩)

/-- A schedule: pairs of a thread and a number of steps. -/
def execMany : List Th → List Nat → Option (List Th)
  | s, [] => some s
  | s, i :: is => (execOne s i).bind fun s' => execMany s' is

theorem execOne_thr {s i s'} (e : execOne s i = some s') : Thr s s' := by
  unfold execOne at e
  split at e
  · cases e
  · rename_i t ht
    obtain ⟨l, hl⟩ := List.getElem?_eq_some_iff.mp ht
    have hs : s = s.take i ++ t :: s.drop (i + 1) := by
      rw [← hl, List.getElem_cons_drop, List.take_append_drop]
    have hset : ∀ x, s.set i x = s.take i ++ x :: s.drop (i + 1) := by
      intro x; rw [List.set_eq_take_append_cons_drop, if_pos l]
    obtain ⟨todo, held⟩ := t
    simp only [hset] at e
    generalize s.take i = a at *
    generalize s.drop (i + 1) = b at *
    subst hs
    cases todo with
    | nil => cases e
    | cons x r =>
      cases x with
      | acq m =>
        dsimp only at e
        split at e
        · rename_i n; injection e with e; subst e; exact .inner (.acq n)
        · cases e
      | rel m =>
        dsimp only at e
        split at e
        · rename_i n; injection e with e; subst e; exact .inner (.rel n)
        · cases e
      | wait x => dsimp only at e; injection e with e; subst e; exact .came
      | use m => dsimp only at e; injection e with e; subst e; exact .inner .use
      | raw m => dsimp only at e; injection e with e; subst e; exact .inner .raw

theorem execMany_threads {s is s'} (e : execMany s is = some s') : Threads s s' := by
  have aux : ∀ (is : List Nat) (s0 s : List Th), Threads s0 s →
      execMany s is = some s' → Threads s0 s' := by
    intro is
    induction is with
    | nil => intro s0 s t e; cases e; exact t
    | cons i is ih =>
      intro s0 s t e
      rw [execMany] at e
      cases h : execOne s i with
      | none => rw [h] at e; cases e
      | some s1 => rw [h] at e; exact ih _ _ (.step t (execOne_thr h)) e
  exact aux _ _ _ .refl e

end Conman
