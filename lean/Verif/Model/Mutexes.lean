import Verif.Spec.Mutexes

/-
  What each function of the daemon does to the mutexes, as the set of all its
  possible sequences of locking, unlocking, waiting for the outside and touching
  guarded data.

  Simplifications, for all definitions of this file:
  * A branch on data is a choice (`⊔`), a loop is any number of rounds
    (`star`), and an object met in a list is any object (`any`).  So every
    sequence of the code is among those of the model; the model has more.
  * `log_err` and `out_of_memory` end the process and are not modelled.
  * Assertions and debug messages are compiled out (NDEBUG).
  * The mutexes inside the C library and libipmiconsole are not modelled: a
    library call is a step without a mutex, or a `wait`.
-/

namespace Conman

open Spec

/-- Sets of sequences of actions: regular expressions over `LAct`. -/
inductive LP where
  | skip
  | act (a : LAct)
  | seq (p q : LP)
  | alt (p q : LP)
  | star (p : LP)
  | any (f : Nat → LP)

@[inherit_doc] infixr:60 " ⨟ " => LP.seq
@[inherit_doc] infixr:55 " ⊔ " => LP.alt

/-- `tr` is a sequence of `p`. -/
inductive LpRun : LP → List LAct → Prop where
  | skip : LpRun .skip []
  | act {a} : LpRun (.act a) [a]
  | seq {p q a b} : LpRun p a → LpRun q b → LpRun (p ⨟ q) (a ++ b)
  | altL {p q a} : LpRun p a → LpRun (p ⊔ q) a
  | altR {p q a} : LpRun q a → LpRun (p ⊔ q) a
  | star0 {p} : LpRun (.star p) []
  | starS {p a b} : LpRun p a → LpRun (.star p) b → LpRun (.star p) (a ++ b)
  | any {f a} (n : Nat) : LpRun (f n) a → LpRun (.any f) a

namespace Mx

/-! ### src/list.c -/

/-- list_mutex_lock, x_pthread_mutex_lock: src/list.c:142-146,
    src/wrapper.h:44-48. -/
def lock (m : Lk) : LP := .act (.acq m)
/-- list_mutex_unlock, x_pthread_mutex_unlock: src/list.c:148-152,
    src/wrapper.h:50-54. -/
def unlock (m : Lk) : LP := .act (.rel m)
/-- Reading or writing what the mutex guards. -/
def touch (m : Lk) : LP := .act (.use m)
/-- Reading or writing the same without the mutex. -/
def touchBare (m : Lk) : LP := .act (.raw m)
/-- Waiting for a client, a console, a timer or the IPMI engine. -/
def waitPeer : LP := .act (.wait .peer)
/-- Waiting for the name service. -/
def waitLookup : LP := .act (.wait .lookup)
/-- Perhaps. -/
def opt (p : LP) : LP := .skip ⊔ p

/-- A function whose whole body is under one mutex. -/
def crit (m : Lk) (p : LP) : LP := lock m ⨟ touch m ⨟ p ⨟ unlock m

/-- list_alloc: src/list.c:635-654. -/
def listAlloc : LP := crit .freeLists .skip
/-- list_node_alloc: src/list.c:657-676. -/
def listNodeAlloc : LP := crit .freeNodes .skip
/-- list_iterator_alloc: src/list.c:679-698. -/
def listIteratorAlloc : LP := crit .freeIters .skip
/-- list_free: src/list.c:701-708. -/
def listFree : LP := crit .freeLists .skip
/-- list_node_free: src/list.c:711-718. -/
def listNodeFree : LP := crit .freeNodes .skip
/-- list_iterator_free: src/list.c:721-728. -/
def listIteratorFree : LP := crit .freeIters .skip

/-- list_node_create: src/list.c:568-598 (the caller holds the list's mutex). -/
def listNodeCreate : LP := listNodeAlloc
/-- list_node_destroy: src/list.c:601-632 (the caller holds the list's mutex). -/
def listNodeDestroy : LP := .skip ⊔ listNodeFree

/-- list_create: src/list.c:175-188. -/
def listCreate : LP := listAlloc
/-- list_destroy: src/list.c:191-220.  `del` is the destructor of the items; it
    is called with the mutex held (lines 210-211). -/
def listDestroy (m : Lk) (del : LP) : LP :=
  lock m ⨟ touch m ⨟ .star listIteratorFree ⨟ .star (opt del ⨟ listNodeFree) ⨟
  unlock m ⨟ listFree
/-- list_is_empty, list_count, list_find_first, list_sort, list_peek:
    src/list.c:223-246,277-295,327-368,398-408.  The functions passed to them
    by the daemon (find_obj, compare_objs and the finders of src/inevent.c)
    use no mutex. -/
def listLook (m : Lk) : LP := crit m .skip
/-- list_append: src/list.c:249-260. -/
def listAppend (m : Lk) : LP := crit m listNodeCreate
/-- list_delete_all: src/list.c:298-324, destructor with the mutex held. -/
def listDeleteAll (m : Lk) (del : LP) : LP :=
  crit m (.star (listNodeDestroy ⨟ opt del))
/-- list_pop: src/list.c:385-395. -/
def listPop (m : Lk) : LP := crit m listNodeDestroy
/-- list_iterator_create: src/list.c:438-455. -/
def iterCreate (m : Lk) : LP := listIteratorAlloc ⨟ crit m .skip
/-- list_iterator_reset: src/list.c:458-468. -/
def iterReset (m : Lk) : LP := crit m .skip
/-- list_iterator_destroy: src/list.c:471-490. -/
def iterDestroy (m : Lk) : LP := crit m .skip ⨟ listIteratorFree
/-- list_next: src/list.c:493-507. -/
def listNext (m : Lk) : LP := crit m .skip
/-- list_insert: src/list.c:510-522. -/
def listInsert (m : Lk) : LP := crit m listNodeCreate
/-- list_find: src/list.c:525-535. -/
def listFind (m : Lk) : LP := .star (listNext m)
/-- list_remove: src/list.c:538-550. -/
def listRemove (m : Lk) : LP := crit m listNodeDestroy
/-- list_delete: src/list.c:553-565: the destructor is called after the mutex
    was given back. -/
def listDelete (m : Lk) (del : LP) : LP := listRemove m ⨟ opt del

/-- `i = list_iterator_create(l); while ((x = list_next(i))) body;
    list_iterator_destroy(i);` with or without `break`. -/
def forEach (m : Lk) (body : LP) : LP :=
  iterCreate m ⨟ .star (listNext m ⨟ body) ⨟ opt (listNext m) ⨟ iterDestroy m

/-! ### src/util-str.c, src/log.c, src/util-net.c -/

/-- get_localtime: src/util-str.c:365-402.  The mutex is used only where the
    platform lacks localtime_r; both are covered. -/
def getLocaltime : LP := opt (crit .localtime .skip)
/-- log_msg: src/log.c:169-178 with log_aux (lines 181-258). -/
def logMsg : LP := getLocaltime
/-- create_long_time_string, create_short_time_string:
    src/util-str.c:259-292. -/
def timeString : LP := getLocaltime
/-- get_host_by_name, get_host_by_addr: src/util-net.c:61-112. -/
def getHostBy : LP :=
  lock .hostent ⨟ waitLookup ⨟ touch .hostent ⨟ unlock .hostent
/-- host_name_to_addr4: src/util-net.c:129-145. -/
def hostNameToAddr4 : LP := getHostBy
/-- host_addr4_to_name: src/util-net.c:148-166. -/
def hostAddr4ToName : LP := getHostBy

/-! ### src/tpoll.c -/

/-- tpoll_clear: src/tpoll.c:275-331. -/
def tpollClear : LP := opt (crit .tpoll .skip)
/-- tpoll_is_set: src/tpoll.c:334-372. -/
def tpollIsSet : LP := opt (crit .tpoll .skip)
/-- tpoll_set: src/tpoll.c:375-430, with _tpoll_grow and _tpoll_signal_send. -/
def tpollSet : LP := opt (crit .tpoll .skip)
/-- tpoll_timeout_absolute: src/tpoll.c:433-488;
    tpoll_timeout_relative: src/tpoll.c:491-503. -/
def tpollTimeout : LP := opt (crit .tpoll .skip)
/-- tpoll_timeout_cancel: src/tpoll.c:506-550. -/
def tpollCancel : LP := opt (crit .tpoll .skip)
/-- tpoll_destroy: src/tpoll.c:195-238. -/
def tpollDestroy : LP := crit .tpoll .skip

/-- The dispatch of the timers that have expired, src/tpoll.c:595-613: the
    mutex is given back around each callback. -/
def tpollDispatch (cb : LP) : LP :=
  .star (unlock .tpoll ⨟ cb ⨟ lock .tpoll ⨟ touch .tpoll)
/-- The call of poll, src/tpoll.c:656-665: without the mutex, on the table that
    the mutex guards. -/
def tpollPoll : LP :=
  unlock .tpoll ⨟ touchBare .tpoll ⨟ waitPeer ⨟ lock .tpoll ⨟ touch .tpoll
/-- tpoll: src/tpoll.c:553-699. -/
def tpollRun (cb : LP) : LP :=
  lock .tpoll ⨟ touch .tpoll ⨟
  .star (tpollDispatch cb ⨟ tpollPoll) ⨟ tpollDispatch cb ⨟ tpollPoll ⨟
  unlock .tpoll

/-! ### src/server-obj.c -/

/-- create_obj: src/server-obj.c:65-99. -/
def createObj : LP := listCreate ⨟ listCreate
/-- format_obj_string: src/server-obj.c:301-430. -/
def formatObjString : LP := getLocaltime
/-- write_obj_data: src/server-obj.c:961-1075. -/
def writeObjData (o : Nat) : LP :=
  .skip ⊔ logMsg ⊔
  (lock (.buf o) ⨟
    (unlock (.buf o) ⊔
     (touch (.buf o) ⨟ opt logMsg ⨟ opt tpollSet ⨟ unlock (.buf o))))
/-- write_log_data: src/server-logfile.c:356-469. -/
def writeLogData (o : Nat) : LP := .star (writeObjData o)
/-- notify_console_objs: src/server-obj.c:575-602. -/
def notifyConsoleObjs (o : Nat) : LP :=
  .skip ⊔
  (forEach (.readers o) (.any writeObjData) ⨟
   forEach (.writers o) (listLook (.readers o) ⨟ opt (.any writeObjData)))
/-- write_notify_msg: src/server-obj.c:515-572. -/
def writeNotifyMsg (o : Nat) : LP :=
  opt logMsg ⨟ opt logMsg ⨟ notifyConsoleObjs o
/-- unlink_objs: src/server-obj.c:683-740. -/
def unlinkObjs (src dst : Nat) : LP :=
  listDeleteAll (.readers src) .skip ⨟ listDeleteAll (.writers dst) .skip ⨟
  opt (timeString ⨟ notifyConsoleObjs dst) ⨟
  opt (listLook (.readers src) ⨟ opt (listLook (.writers src))) ⨟
  opt (listLook (.readers dst) ⨟ opt (listLook (.writers dst)))
/-- unlink_obj: src/server-obj.c:743-757. -/
def unlinkObj (o : Nat) : LP :=
  .star (listLook (.writers o) ⨟ .any fun x => unlinkObjs x o) ⨟
  listLook (.writers o) ⨟
  .star (listLook (.readers o) ⨟ .any fun x => unlinkObjs o x) ⨟
  listLook (.readers o)
/-- link_objs: src/server-obj.c:605-680. -/
def linkObjs (src dst : Nat) : LP :=
  opt (opt (listLook (.writers dst)) ⨟ timeString ⨟ notifyConsoleObjs dst ⨟
       forEach (.writers dst) (writeObjData src) ⨟
       opt (forEach (.writers dst) (.any unlinkObj))) ⨟
  listAppend (.readers src) ⨟ listAppend (.writers dst)
/-- create_client_obj: src/server-obj.c:102-138. -/
def createClientObj : LP := tpollSet ⨟ createObj ⨟ listAppend .objs

/-! ### The kinds of consoles, and log files -/

/-- open_logfile_obj: src/server-logfile.c:222-311. -/
def openLogfileObj (o : Nat) : LP :=
  opt (tpollClear ⨟ opt logMsg) ⨟ opt (formatObjString ⨟ opt logMsg) ⨟
  (.skip ⊔ logMsg ⊔ (timeString ⨟ writeObjData o))

/-- check_process_prog: src/server-process.c:389-420. -/
def checkProcessProg (o : Nat) : LP := opt (writeNotifyMsg o)
/-- connect_process_obj: src/server-process.c:298-386; the child only executes
    the program. -/
def connectProcessObj (o : Nat) : LP :=
  checkProcessProg o ⨟
  (.skip ⊔ writeNotifyMsg o ⊔ (tpollSet ⨟ tpollTimeout ⨟ writeNotifyMsg o))
/-- disconnect_process_obj: src/server-process.c:256-295. -/
def disconnectProcessObj (o : Nat) : LP := opt tpollClear ⨟ writeNotifyMsg o
/-- open_process_obj: src/server-process.c:215-253. -/
def openProcessObj (o : Nat) : LP :=
  opt tpollCancel ⨟ opt (disconnectProcessObj o ⊔ connectProcessObj o) ⨟
  opt tpollTimeout

/-- open_serial_obj: src/server-serial.c:375-448. -/
def openSerialObj (o : Nat) : LP :=
  opt (writeNotifyMsg o ⨟ tpollClear ⨟ opt logMsg) ⨟
  (logMsg ⊔ (tpollSet ⨟ writeNotifyMsg o))

/-- send_telnet_cmd: src/server-telnet.c:447-499. -/
def sendTelnetCmd (o : Nat) : LP := .skip ⊔ logMsg ⊔ writeObjData o
/-- process_telnet_cmd: src/server-telnet.c:502-580, and
    process_telnet_escapes: src/server-telnet.c:362-444. -/
def processTelnetEscapes (o : Nat) : LP :=
  .star (opt logMsg ⨟ opt (sendTelnetCmd o) ⨟ opt logMsg)
/-- disconnect_telnet_obj: src/server-telnet.c:297-340. -/
def disconnectTelnetObj (o : Nat) : LP :=
  opt tpollCancel ⨟ opt (tpollClear ⨟ opt logMsg) ⨟ opt (writeNotifyMsg o) ⨟
  tpollTimeout
/-- connect_telnet_obj: src/server-telnet.c:177-294. -/
def connectTelnetObj (o : Nat) : LP :=
  opt tpollCancel ⨟
  ((hostNameToAddr4 ⨟ logMsg ⨟ tpollTimeout) ⊔
   (hostNameToAddr4 ⨟ (tpollSet ⊔ disconnectTelnetObj o)) ⊔
   disconnectTelnetObj o ⊔
   ((hostNameToAddr4 ⊔ tpollClear) ⨟ tpollSet ⨟ writeNotifyMsg o ⨟
    tpollTimeout ⨟ sendTelnetCmd o ⨟ sendTelnetCmd o ⨟ sendTelnetCmd o ⨟
    sendTelnetCmd o ⨟ sendTelnetCmd o))
/-- open_telnet_obj: src/server-telnet.c:154-174. -/
def openTelnetObj (o : Nat) : LP := disconnectTelnetObj o ⊔ connectTelnetObj o

/-- disconnect_unixsock_obj: src/server-unixsock.c:320-362. -/
def disconnectUnixsockObj (o : Nat) : LP :=
  opt tpollCancel ⨟ opt (tpollClear ⨟ opt logMsg) ⨟ opt (writeNotifyMsg o) ⨟
  tpollTimeout
/-- connect_unixsock_obj: src/server-unixsock.c:215-317. -/
def connectUnixsockObj (o : Nat) : LP :=
  opt tpollCancel ⨟
  ((logMsg ⨟ disconnectUnixsockObj o) ⊔
   (tpollSet ⨟ tpollTimeout ⨟ writeNotifyMsg o))
/-- open_unixsock_obj: src/server-unixsock.c:162-179;
    open_unixsock_obj_via_inotify: src/server-unixsock.c:182-196. -/
def openUnixsockObj (o : Nat) : LP :=
  disconnectUnixsockObj o ⊔ connectUnixsockObj o

/-- open_test_obj: src/server-test.c:228-274. -/
def openTestObj : LP :=
  opt tpollCancel ⨟ opt (tpollClear ⨟ opt logMsg) ⨟ (logMsg ⊔ tpollTimeout)
/-- read_test_obj: src/server-test.c:277-355. -/
def readTestObj (o : Nat) : LP :=
  opt tpollCancel ⨟
  opt (forEach (.readers o) (.any fun x => writeLogData x ⊔ writeObjData x)) ⨟
  tpollTimeout

/-- create_ipmi_ctx: src/server-ipmi.c:938-990 (library calls only). -/
def createIpmiCtx : LP := .skip
/-- initiate_ipmi_connect: src/server-ipmi.c:899-935 (the caller holds the
    object's IPMI mutex; submitting to the engine returns at once). -/
def initiateIpmiConnect : LP := createIpmiCtx ⨟ opt tpollTimeout
/-- complete_ipmi_connect: src/server-ipmi.c:993-1034 (the caller holds the
    object's IPMI mutex). -/
def completeIpmiConnect (o : Nat) : LP :=
  .skip ⊔ (tpollSet ⨟ tpollTimeout ⨟ writeNotifyMsg o)
/-- fail_ipmi_connect: src/server-ipmi.c:1037-1076 (the caller holds the
    object's IPMI mutex). -/
def failIpmiConnect : LP := logMsg ⨟ tpollTimeout
/-- connect_ipmi_obj: src/server-ipmi.c:853-896. -/
def connectIpmiObj (o : Nat) : LP :=
  lock (.ipmi o) ⨟ touch (.ipmi o) ⨟
  opt (opt tpollCancel ⨟ (initiateIpmiConnect ⊔ completeIpmiConnect o) ⨟
       opt failIpmiConnect) ⨟
  unlock (.ipmi o)
/-- disconnect_ipmi_obj: src/server-ipmi.c:816-850. -/
def disconnectIpmiObj (o : Nat) : LP :=
  lock (.ipmi o) ⨟ touch (.ipmi o) ⨟
  opt tpollCancel ⨟ opt (tpollClear ⨟ opt logMsg) ⨟ opt (writeNotifyMsg o) ⨟
  unlock (.ipmi o)
/-- open_ipmi_obj: src/server-ipmi.c:786-813. -/
def openIpmiObj (o : Nat) : LP :=
  crit (.ipmi o) .skip ⨟
  (.skip ⊔ connectIpmiObj o ⊔ (disconnectIpmiObj o ⨟ connectIpmiObj o))
/-- reset_ipmi_delay: src/server-ipmi.c:1079-1095. -/
def resetIpmiDelay (o : Nat) : LP := crit (.ipmi o) .skip
/-- send_ipmi_break: src/server-ipmi.c:1098-1120. -/
def sendIpmiBreak (o : Nat) : LP := crit (.ipmi o) (opt logMsg)

/-- reopen_obj: src/server-obj.c:263-298. -/
def reopenObj (o : Nat) : LP :=
  .skip ⊔ openLogfileObj o ⊔ openProcessObj o ⊔ openSerialObj o ⊔
  openTelnetObj o ⊔ openUnixsockObj o ⊔ openIpmiObj o ⊔ openTestObj

/-- shutdown_obj: src/server-obj.c:798-869. -/
def shutdownObj (o : Nat) : LP :=
  logMsg ⊔
  (tpollClear ⨟ opt logMsg ⨟ crit (.buf o) .skip ⨟ opt logMsg ⨟
   (.skip ⊔ unlinkObj o ⊔ reopenObj o))

/-! ### src/inevent.c -/

/-- _inevent_fini: src/inevent.c:387-405 (the destructor only frees). -/
def ineventFini : LP := opt (listDestroy .inev .skip)
/-- inevent_add: src/inevent.c:176-217, with _inevent_init. -/
def ineventAdd : LP :=
  opt (listCreate ⊔ (listCreate ⨟ ineventFini)) ⨟
  opt (listLook .inev ⨟ opt (listAppend .inev))
/-- inevent_remove: src/inevent.c:220-272. -/
def ineventRemove : LP :=
  .skip ⊔
  (iterCreate .inev ⨟ listFind .inev ⨟ logMsg ⨟ iterDestroy .inev) ⊔
  (iterCreate .inev ⨟ listFind .inev ⨟ listRemove .inev ⨟ iterReset .inev ⨟
   .star (listFind .inev) ⨟ iterDestroy .inev ⨟ listLook .inev ⨟
   opt ineventFini)
/-- inevent_process: src/inevent.c:285-352; the callback is
    open_unixsock_obj_via_inotify. -/
def ineventProcess : LP :=
  .skip ⊔ logMsg ⊔
  .star (.skip ⊔ listDeleteAll .inev .skip ⊔
    (listLook .inev ⨟ opt (.any openUnixsockObj)))

/-! ### Requests and objects at the end of their lives -/

/-- create_req: src/common.c:82-107. -/
def createReq : LP := listCreate
/-- destroy_req: src/common.c:110-137 (strings and references are not objects
    with mutexes). -/
def destroyReq (n : Nat) : LP := opt (listDestroy (.lst n) .skip)
/-- destroy_obj: src/server-obj.c:141-260; the count of buffered bytes (line
    152) is taken without the mutex. -/
def destroyObj (o : Nat) : LP :=
  touchBare (.buf o) ⨟ opt logMsg ⨟
  (.skip ⊔ (logMsg ⨟ .any destroyReq) ⊔ logMsg ⊔ ineventRemove) ⨟
  opt (listDestroy (.readers o) .skip) ⨟ opt (listDestroy (.writers o) .skip) ⨟
  opt (tpollClear ⨟ opt logMsg)

/-! ### src/server-esc.c -/

/-- perform_serial_break: src/server-esc.c:136-195. -/
def performSerialBreak (c : Nat) : LP :=
  forEach (.readers c) (.any fun o =>
    .skip ⊔ writeObjData o ⊔ logMsg ⊔ (sendTelnetCmd o ⨟ opt logMsg) ⊔
    (sendIpmiBreak o ⨟ opt logMsg))
/-- perform_del_char_seq: src/server-esc.c:198-221. -/
def performDelCharSeq (c : Nat) : LP := forEach (.readers c) (.any writeObjData)
/-- perform_console_writer_linkage: src/server-esc.c:224-259. -/
def performConsoleWriterLinkage (c : Nat) : LP :=
  opt (listLook (.writers c) ⨟ listLook (.readers c) ⨟
    .any fun o => unlinkObjs c o ⊔ linkObjs c o)
/-- perform_log_replay: src/server-esc.c:262-391. -/
def performLogReplay (c : Nat) : LP :=
  listLook (.writers c) ⨟
  opt (listLook (.writers c) ⨟
    (logMsg ⊔ writeObjData c ⊔
     (.any (fun l => crit (.buf l) .skip) ⨟ writeObjData c)))
/-- perform_quiet_toggle: src/server-esc.c:394-421. -/
def performQuietToggle (c : Nat) : LP := writeObjData c
/-- perform_reset: src/server-esc.c:424-517. -/
def performReset (c : Nat) : LP :=
  opt logMsg ⨟
  forEach (.readers c) (.any fun o =>
    .skip ⊔ writeNotifyMsg o ⊔
    (formatObjString ⨟ writeNotifyMsg o) ⊔
    (formatObjString ⨟ writeNotifyMsg o ⨟ tpollTimeout ⨟
     opt (writeNotifyMsg o))) ⨟
  opt logMsg
/-- kill_reset_cmd: src/server-esc.c:520-550. -/
def killResetCmd : LP := opt logMsg
/-- perform_suspend: src/server-esc.c:553-577. -/
def performSuspend : LP := (tpollClear ⊔ tpollSet) ⨟ logMsg
/-- process_client_escapes: src/server-esc.c:59-133. -/
def processClientEscapes (c : Nat) : LP :=
  .star (.skip ⊔ performSerialBreak c ⊔ performDelCharSeq c ⊔
    performConsoleWriterLinkage c ⊔ performLogReplay c ⊔
    performQuietToggle c ⊔ performReset c ⊔ performSuspend ⊔ logMsg)

/-! ### The main thread -/

/-- read_from_obj: src/server-obj.c:872-958; whether the buffer is empty at an
    end of file (line 923) is looked at without the mutex. -/
def readFromObj (o : Nat) : LP :=
  .skip ⊔ (logMsg ⨟ shutdownObj o) ⊔
  (opt logMsg ⨟ tpollClear ⨟ touchBare (.buf o) ⨟ opt (shutdownObj o)) ⊔
  ((.skip ⊔ (crit (.buf o) .skip ⨟ processClientEscapes o) ⊔
    processTelnetEscapes o) ⨟
   opt (forEach (.readers o)
     (.any fun x => writeLogData x ⊔ writeObjData x)))
/-- write_to_obj: src/server-obj.c:1078-1182.  The descriptor does not block. -/
def writeToObj (o : Nat) : LP :=
  .skip ⊔ openTelnetObj o ⊔
  (lock (.buf o) ⨟ touch (.buf o) ⨟ opt logMsg ⨟ opt tpollClear ⨟
   unlock (.buf o) ⨟ opt (shutdownObj o))

/-- schedule_timestamp: src/server.c:557-599. -/
def scheduleTimestamp : LP := getLocaltime ⨟ tpollTimeout
/-- timestamp_logfiles: src/server.c:602-634. -/
def timestampLogfiles : LP :=
  timeString ⨟ forEach .objs (opt (.any writeObjData)) ⨟ opt scheduleTimestamp
/-- open_daemon_logfile: src/server.c:829-930. -/
def openDaemonLogfile : LP :=
  opt (formatObjString ⨟ opt logMsg) ⨟ opt logMsg ⨟ opt logMsg
/-- reopen_logfiles: src/server.c:933-953. -/
def reopenLogfiles : LP :=
  forEach .objs (opt (.any openLogfileObj)) ⨟ opt openDaemonLogfile
/-- accept_client: src/server.c:956-1018.  The listening socket does not block;
    the new thread is one of the `processClient` of the system. -/
def acceptClient : LP := .skip

/-- The callbacks of timers: connect_telnet_obj, reset_telnet_delay,
    open_process_obj, reset_process_delay, connect_unixsock_obj,
    reset_unixsock_delay, connect_ipmi_obj, reset_ipmi_delay, read_test_obj,
    kill_reset_cmd, timestamp_logfiles (those named `reset_..._delay`, but the
    one of IPMI, use no mutex). -/
def timerCallback : LP :=
  .skip ⊔ .any connectTelnetObj ⊔ .any openProcessObj ⊔
  .any connectUnixsockObj ⊔ .any connectIpmiObj ⊔ .any resetIpmiDelay ⊔
  .any readTestObj ⊔ killResetCmd ⊔ timestampLogfiles

/-- One object of the inner loop of mux_io, src/server.c:805-821. -/
def muxObj (o : Nat) : LP :=
  tpollIsSet ⨟ tpollIsSet ⨟
  (.skip ⊔ readFromObj o ⊔ (readFromObj o ⨟ listDelete .objs (destroyObj o)) ⊔
   (opt (readFromObj o) ⨟ writeToObj o) ⊔
   (opt (readFromObj o) ⨟ writeToObj o ⨟ listDelete .objs (destroyObj o)))
/-- mux_io: src/server.c:749-826. -/
def muxIo : LP :=
  opt tpollSet ⨟ iterCreate .objs ⨟
  .star (opt (logMsg ⨟ reopenLogfiles) ⨟
    tpollRun timerCallback ⨟ .star (tpollRun timerCallback) ⨟
    opt (tpollIsSet ⨟ opt acceptClient) ⨟ opt (tpollIsSet ⨟ opt ineventProcess) ⨟
    iterReset .objs ⨟ .star (listNext .objs ⨟ .any muxObj) ⨟
    opt (listNext .objs)) ⨟
  logMsg ⨟ iterDestroy .objs

/-- create_process_obj, create_serial_obj, create_telnet_obj,
    create_unixsock_obj, create_ipmi_obj, create_test_obj (and
    create_logfile_obj with its insertion and links), as far as mutexes go:
    src/server-process.c:148-212, src/server-serial.c:319-372,
    src/server-telnet.c:94-151, src/server-unixsock.c:86-159,
    src/server-ipmi.c:714-767, src/server-test.c:184-225,
    src/server-logfile.c:106-219. -/
def createConfObj : LP :=
  opt formatObjString ⨟ forEach .objs .skip ⨟
  opt (createObj ⨟ .star (.any fun n => listPop (.lst n)) ⨟
    opt (listAppend .objs) ⨟
    opt ineventAdd ⨟ opt logMsg ⨟ opt (forEach .objs (opt (listInsert .objs))) ⨟
    opt (.any fun a => .any fun b => linkObjs a b))
/-- process_config: src/server-conf.c:392-483, with the parsers of the
    directives (any sequence of their effects on mutexes). -/
def processConfig : LP :=
  .star (.skip ⊔ logMsg ⊔ createConfObj ⊔ listCreate ⊔ timeString ⊔
    .any fun n => listAppend (.lst n) ⊔ listLook (.lst n) ⊔
      listDestroy (.lst n) .skip)
/-- open_objs: src/server.c:720-746. -/
def openObjs : LP := forEach .objs (.any reopenObj)
/-- ipmi_init: src/server-ipmi.c:83-109. -/
def ipmiInit : LP := opt logMsg
/-- ipmi_fini: src/server-ipmi.c:112-128: waits for the IPMI engine. -/
def ipmiFini : LP := opt waitPeer
/-- destroy_server_conf: src/server-conf.c:277-320. -/
def destroyServerConf : LP :=
  opt logMsg ⨟ opt logMsg ⨟ opt logMsg ⨟ opt (listDestroy .objs (.any destroyObj)) ⨟
  opt tpollDestroy
/-- main: src/server.c:91-177. -/
def mainThread : LP :=
  listCreate ⨟ processConfig ⨟ listLook .objs ⨟
  opt (forEach .objs .skip) ⨟ opt scheduleTimestamp ⨟
  tpollSet ⨟ opt openDaemonLogfile ⨟ logMsg ⨟ logMsg ⨟
  ipmiInit ⨟ logMsg ⨟ openObjs ⨟ muxIo ⨟ ipmiFini ⨟ destroyServerConf ⨟
  opt logMsg ⨟ logMsg

/-! ### The threads of clients -/

/-- resolve_addr: src/server-sock.c:159-217. -/
def resolveAddr : LP := hostAddr4ToName ⨟ opt (waitPeer ⨟ opt logMsg)
/-- send_rsp: src/server-sock.c:708-799. -/
def sendRsp (n : Nat) : LP :=
  opt (listLook (.lst n) ⨟ opt (forEach (.lst n) .skip)) ⨟ opt logMsg ⨟
  opt (waitPeer ⨟ opt logMsg)
/-- recv_greeting: src/server-sock.c:220-276. -/
def recvGreeting (n : Nat) : LP := waitPeer ⨟ (.skip ⊔ logMsg ⊔ sendRsp n)
/-- recv_req: src/server-sock.c:318-371, with parse_cmd_opts (lines 374-415). -/
def recvReq (n : Nat) : LP :=
  waitPeer ⨟ opt logMsg ⨟ .star (listAppend (.lst n)) ⨟ opt (sendRsp n)
/-- query_consoles_via_globbing: src/server-sock.c:460-497. -/
def queryGlob (n m : Nat) : LP :=
  listLook (.lst n) ⨟ opt (listAppend (.lst n)) ⨟
  iterCreate (.lst n) ⨟ iterCreate .objs ⨟
  .star (listNext (.lst n) ⨟ iterReset .objs ⨟
    .star (listNext .objs ⨟ opt (listLook (.lst m) ⨟ opt (listAppend (.lst m)))) ⨟
    listNext .objs) ⨟
  listNext (.lst n) ⨟ iterDestroy (.lst n) ⨟ iterDestroy .objs
/-- query_consoles_via_regex: src/server-sock.c:500-559. -/
def queryRegex (n m : Nat) : LP :=
  listLook (.lst n) ⨟ opt (listAppend (.lst n)) ⨟
  forEach (.lst n) .skip ⨟
  ((opt logMsg ⨟ sendRsp n) ⊔ forEach .objs (opt (listAppend (.lst m))))
/-- query_consoles: src/server-sock.c:418-457.  `m` is the list of matches. -/
def queryConsoles (n m : Nat) : LP :=
  listLook (.lst n) ⨟
  opt (listCreate ⨟ (queryGlob n m ⊔ queryRegex n m) ⨟
    listDestroy (.lst n) .skip ⨟ listLook (.lst m) ⨟ listLook (.lst m))
/-- check_too_many_consoles: src/server-sock.c:580-619. -/
def checkTooMany (m : Nat) : LP :=
  .skip ⊔
  (listLook (.lst m) ⨟ opt (listLook (.lst m) ⨟ sendRsp m ⨟
    forEach (.lst m) (waitPeer ⨟ opt logMsg)))
/-- check_busy_consoles: src/server-sock.c:622-705.  `b` is the list of busy
    consoles. -/
def checkBusy (m b : Nat) : LP :=
  .skip ⊔
  (listCreate ⨟
   forEach (.lst m) (.any (fun o => listLook (.writers o)) ⨟
     opt (listAppend (.lst b))) ⨟
   listLook (.lst b) ⨟
   (listDestroy (.lst b) .skip ⊔
    (listLook (.lst b) ⨟ opt (listLook (.lst b)) ⨟ sendRsp m ⨟
     .star (listPop (.lst b) ⨟ .any fun o =>
       forEach (.writers o) (.any fun w =>
         lock (.buf w) ⨟ touch (.buf w) ⨟ listLook (.writers w) ⨟
         unlock (.buf w) ⨟ waitPeer ⨟ opt logMsg)) ⨟
     listPop (.lst b) ⨟ listDestroy (.lst b) .skip)))
/-- validate_req: src/server-sock.c:562-577. -/
def validateReq (m b : Nat) : LP :=
  listLook (.lst m) ⨟
  (sendRsp m ⊔ (checkTooMany m ⨟ opt (checkBusy m b)))
/-- check_console_state: src/server-sock.c:907-980; the state of an IPMI
    connection (lines 966 and 973) is looked at without the mutex. -/
def checkConsoleState (o c : Nat) : LP :=
  .skip ⊔ (writeObjData c ⨟ openProcessObj o) ⊔
  (writeObjData c ⨟ openSerialObj o) ⊔
  (writeObjData c ⨟ opt (openTelnetObj o)) ⊔
  (writeObjData c ⨟ openUnixsockObj o) ⊔
  (touchBare (.ipmi o) ⨟ opt (writeObjData c ⨟ touchBare (.ipmi o) ⨟
    opt (openIpmiObj o)))
/-- perform_query_cmd: src/server-sock.c:802-822. -/
def performQueryCmd (m : Nat) : LP := logMsg ⨟ sendRsp m ⨟ opt (destroyReq m)
/-- perform_monitor_cmd: src/server-sock.c:825-851. -/
def performMonitorCmd (m : Nat) : LP :=
  sendRsp m ⨟
  opt (createClientObj ⨟ listLook (.lst m) ⨟
    .any fun c => .any fun o => linkObjs o c ⨟ checkConsoleState o c ⨟ logMsg)
/-- perform_connect_cmd: src/server-sock.c:854-904. -/
def performConnectCmd (m : Nat) : LP :=
  sendRsp m ⨟
  opt (createClientObj ⨟ listLook (.lst m) ⨟ .any fun c =>
    (listLook (.lst m) ⨟
     .any fun o => linkObjs c o ⨟ linkObjs o c ⨟ checkConsoleState o c ⨟ logMsg) ⊔
    (forEach (.lst m) (.any fun o => linkObjs c o ⨟ checkConsoleState o c) ⨟
     listLook (.lst m) ⨟ logMsg))
/-- process_client: src/server-sock.c:89-156. -/
def processClient : LP :=
  .any fun n => .any fun m => .any fun b =>
  createReq ⨟
  ((resolveAddr ⨟ destroyReq n) ⊔
   (resolveAddr ⨟ recvGreeting n ⨟ destroyReq n) ⊔
   (resolveAddr ⨟ recvGreeting n ⨟ recvReq n ⨟ destroyReq n) ⊔
   (resolveAddr ⨟ recvGreeting n ⨟ recvReq n ⨟ queryConsoles n m ⨟
    (destroyReq m ⊔
     (validateReq m b ⨟
      (destroyReq m ⊔
       ((performConnectCmd m ⊔ performMonitorCmd m ⊔ performQueryCmd m ⊔ logMsg) ⨟
        opt (destroyReq m)))))))

/-- A thread of the IPMI engine, as far as it runs code of the daemon: it calls
    connect_ipmi_obj (src/server-ipmi.c:916-917) when something happened to a
    connection. -/
def engineThread : LP := .star (waitPeer ⨟ .any connectIpmiObj)

end Mx

/-- The threads of a daemon that starts: the main thread, those of any number of
    clients, and those of the IPMI engine.  A thread that is created later is one
    that has not taken its first step. -/
structure Daemon (s : List Th) : Prop where
  threads : ∃ m cs es, LpRun Mx.mainThread m ∧ (∀ c ∈ cs, LpRun Mx.processClient c) ∧
    (∀ e ∈ es, LpRun Mx.engineThread e) ∧ s = (m :: cs ++ es).map fresh

end Conman
