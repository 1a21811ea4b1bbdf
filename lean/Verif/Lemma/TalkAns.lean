import Verif.Lemma.Talk
import Verif.Props.ClientHelp

/-
Lemmas about answers for C86.
-/
namespace Conman
open Spec

theorem answer_size (reset : Bool) (names : List (List UInt8)) (hn : names ≠ []) :
    (protoStr tokOk ++ line (rspItems reset names)).length = answerSize reset names := by
  have he : ∀ s, (strArg tokConsole s).length = s.length + 11 := by
    intro s
    unfold strArg lexEncode
    simp only [List.length_append, List.length_map]
    have h1 : (bs " ").length = 1 := by decide
    have h2 : (bs "='").length = 2 := by decide
    have h3 : (bs "'").length = 1 := by decide
    have h4 : (protoStr tokConsole).length = 7 := by decide
    omega
  have h1 : (protoStr tokOk).length = 2 := by decide
  have h2 : (bs "\n").length = 1 := by decide
  have h3 : (Item.render (.opt 15)).length = 13 := by decide
  have hc : ((names.map Item.con).map Item.render).flatten.length = (names.map fun n => n.length + 11).sum := by
    rw [List.length_flatten, List.map_map, List.map_map]
    congr 1
    apply List.map_congr_left
    intro n _
    exact he n
  unfold line rspItems answerSize
  rw [List.length_append, List.length_append, List.map_append, List.flatten_append, List.length_append, hc, h1, h2]
  by_cases hr : reset = true
  · rw [if_pos ⟨hn, hr⟩, if_pos hr]
    simp only [List.map_cons, List.map_nil, List.flatten_cons, List.flatten_nil, List.append_nil, h3]; omega
  · rw [if_neg (fun g => hr g.2), if_neg hr]
    simp only [List.map_nil, List.flatten_nil, List.length_nil]; omega

theorem strArg_size (t : Int) (s : List UInt8) : s.length ≤ (strArg t s).length := by
  unfold strArg lexEncode
  simp only [List.length_append, List.length_map]
  omega

theorem alternation_fits {c : ClientConf} (hp : ∀ p ∈ c.consoles, Plain p) {q : List UInt8} (h : request maxSockLine c.req = some (some q)) :
    (alternation c.consoles).length < maxSockLine := by
  have hm := msl
  rw [request_eq maxSockLine c.req (by omega) hp] at h
  split at h
  · rename_i hl
    have : (alternation c.consoles).length ≤ (line (reqItems c.req)).length := by
      have he : ∀ s, s.length + 1 ≤ (strArg tokConsole s).length := by
        intro s
        unfold strArg lexEncode
        simp only [List.length_append, List.length_map]
        have h1 : (bs " ").length = 1 := by decide
        omega
      have hc : ((c.consoles.map Item.con).map Item.render).flatten.length = (c.consoles.map fun n => (strArg tokConsole n).length).sum := by
        rw [List.length_flatten, List.map_map, List.map_map]
        rfl
      have hsum : ∀ l : List (List UInt8), (l.map fun x => x.length + 1).sum ≤ (l.map fun n => (strArg tokConsole n).length).sum := by
        intro l
        induction l with
        | nil => simp
        | cons a l ih => simp only [List.map_cons, List.sum_cons]; have := he a; omega
      have hal : (alternation c.consoles).length ≤ (c.consoles.map fun x => x.length + 1).sum := by
        cases c.consoles with
        | nil => simp [alternation]
        | cons p ps => rw [alternation_length]; simp
      unfold line reqItems
      rw [List.length_append, List.map_append, List.flatten_append, List.length_append]
      have := hsum c.consoles
      show _ ≤ _ + ((c.consoles.map Item.con).map Item.render).flatten.length + _
      omega
    rw [List.length_append] at hl
    omega
  · simp at h

theorem srvErr_eq {n : Nat} {msg : List UInt8} (hn : n < 10) (h : Plain msg) : srvErr n msg = some (errLine n msg ++ bs "\n") ∧ (errLine n msg ++ bs "\n").length < maxSockLine := by
  have hm := msl
  have hl : (errLine n msg ++ bs "\n").length < maxSockLine := by
    unfold errLine strArg lexEncode
    simp only [List.length_append, List.length_map]
    have h1 : (bs " ").length = 1 := by decide
    have h2 : (bs "='").length = 2 := by decide
    have h3 : (bs "'").length = 1 := by decide
    have h4 : (protoStr tokError).length = 5 := by decide
    have h5 : (protoStr tokCode).length = 4 := by decide
    have h6 : (protoStr tokMessage).length = 7 := by decide
    have h7 : (bs "=").length = 1 := by decide
    have h8 : (bs "\n").length = 1 := by decide
    have h9 : (dec n).length = 1 := by
      have : ∀ k : Fin 10, (dec k).length = 1 := by decide +kernel
      exact this ⟨n, hn⟩
    have := h.2
    omega
  unfold srvErr
  rw [rspErr_eq maxSockLine n (some msg) (by omega) (by exact h)]
  refine ⟨?_, hl⟩
  rw [show ((some msg).getD (bs "unspecified error")) = msg from rfl, if_pos hl]
  rfl

theorem crun_out {stk : List UInt8} {s s' : CSess} {es : List CEvent} (h : s.run stk es = some s') : s.out <+: s'.out := by
  have chk : ∀ {a b : CSess}, a.check stk = some b → a.out <+: b.out := by
    intro a b h
    unfold CSess.check at h
    split at h
    · split at h
      · cases h; exact List.prefix_rfl
      · obtain ⟨t, -, rfl⟩ := Option.map_eq_some_iff.1 h; exact List.prefix_append _ _
    · cases h; exact List.prefix_rfl
  have hd : ∀ (a : CSess) d, a.out <+: (a.onData d).out := by
    intro a d; rcases d with _ | _ | d
    · exact List.prefix_rfl
    · exact List.prefix_rfl
    · exact List.prefix_append _ _
  have stp : ∀ {a b : CSess} {e : CEvent}, a.step stk e = some b → a.out <+: b.out := by
    intro a b e h
    unfold CSess.step at h
    split at h
    · split at h
      · obtain ⟨s1, h1, h2⟩ := Option.bind_eq_some_iff.1 h
        refine List.IsPrefix.trans ?_ (chk h2)
        refine List.IsPrefix.trans ?_ (hd _ _)
        unfold CSess.onKey at h1
        split at h1
        · cases h1; exact List.prefix_rfl
        · cases h1; exact List.prefix_rfl
        · obtain ⟨ns, -, rfl⟩ := Option.map_eq_some_iff.1 h1
          exact List.prefix_append _ _
      · have := chk h
        exact this
      · cases h; exact List.prefix_rfl
    · cases h; exact List.prefix_rfl
  induction es generalizing s with
  | nil => cases h; exact List.prefix_rfl
  | cons e es ih =>
    unfold CSess.run at h
    obtain ⟨s1, h1, h2⟩ := Option.bind_eq_some_iff.1 h
    exact (stp h1).trans (ih h2)

theorem mapM_some {α β : Type} {f : α → Option β} {g : α → β} {l : List α} (h : ∀ x ∈ l, f x = some (g x)) : l.mapM f = some (l.map g) := by
  induction l with
  | nil => rfl
  | cons a l ih =>
    rw [List.mapM_cons, h a (List.mem_cons_self ..), ih fun x hx => h x (List.mem_cons_of_mem _ hx)]
    rfl

/-- What the server does with a request that can be sent. -/
theorem answer_query {sw : SrvWorld} {c : ClientConf} {w : CWorld} (hs : Sendable sw c w) {stk : List UInt8} (hl : maxSockLine ≤ stk.length) :
    (c.regex = true ∧ sw.rex (if c.consoles = [] then [0x2E, 0x2A] else alternation c.consoles) = none ∧
      srvQuery sw stk (srvReqOf c w) = some (.inl ((sw.rexErr (if c.consoles = [] then [0x2E, 0x2A] else alternation c.consoles)).take (maxSockLine - 1)))) ∨
    ((c.regex = true → sw.rex (if c.consoles = [] then [0x2E, 0x2A] else alternation c.consoles) ≠ none) ∧
      ∃ ns, (ns.map fun (i : sw.Con) => sw.cons[i]).Perm (selection sw c.regex c.consoles) ∧ srvQuery sw stk (srvReqOf c w) = some (.inr ns) ∧
        (Orderly (sw.cons.map (·.name)) → ns.Pairwise fun i j => ∃ v, compareObjs (sw.name i) (sw.name j) = some v ∧ v ≤ 0)) := by
  obtain ⟨q, hq⟩ := hs.fits
  rcases srvQuery_eq (sw := sw) hl (q := srvReqOf c w) (hs.any.imp (fun h => by show some c.cmd = _; rw [h]) id) (fun p hp => plain_nz (hs.pats p hp).1)
    (alternation_fits (fun p hp => (hs.pats p hp).1) hq) with h | ⟨h1, l, h2, h3⟩
  · exact Or.inl h
  · refine Or.inr ⟨h1, _, ?_, h3, fun ho => sorted_cmp ho (fun x hx => List.mem_map_of_mem hx) l⟩
    exact ((SeqL.sorted_perm sw.cmp l).map _).trans h2

/-- The answer is an error. -/
theorem talk_refused {c : ClientConf} {w : CWorld} {o : COutcome} {log : Option (List UInt8)} {sent rest lines msg : List UInt8} {n : Nat}
    (hn : 1 < n ∧ n < 10) (hm : Plain msg ∧ msg ≠ []) (hw : ∀ t, w.rsp2 ≠ .err t) (ht : w.tailErr = false)
    (hr : Reads true (errLine n msg ++ bs "\n" ++ lines) w.rsp2 rest) (htail : (¬ ∃ q, AnswersOk w.rsp2 q) → w.tail.flatten = rest) (h : clientLast c w log sent = some o) :
    o.exit = some 2 ∧ o.out = [] ∧ o.err = bs "ERROR: " ++ msg ++ bs ".\n\n" ++ lines ++ errHint c n := by
  obtain ⟨-, hl⟩ := srvErr_eq hn.2 hm.1
  obtain ⟨e1, e2⟩ := reads_line (errLine_nl hm.1) (errLine_nz hm.1) hl hr hw
  have hrecv : recvRsp (errLine n msg ++ bs "\n" ++ [0]) = some ({ errnum := n, errmsg := some msg }, false) := by
    have := recvRsp_err [] (errLine n msg ++ bs "\n" ++ [0]) n msg hm.1 (by omega) rfl
    rw [if_neg (by omega), if_neg hm.2] at this
    exact this
  have hno : ¬ ∃ q, AnswersOk w.rsp2 q := by
    rintro ⟨q, s, g1, g2⟩
    rw [e1] at g1; cases g1
    rw [hrecv] at g2; simp at g2
  have htl := htail hno
  have hne : ((n : Nat) : Int) ≠ 1 := by omega
  unfold clientLast at h
  rw [e1, clientRsp_err hrecv hne, Option.bind_some, if_pos rfl] at h
  cases h
  unfold displayError
  dsimp only
  rw [if_pos ⟨hne, rfl⟩, if_neg (by rw [ht]; decide)]
  refine ⟨rfl, rfl, ?_⟩
  dsimp only
  rw [show argS ((some msg).getD (bs "Unspecified")) = msg from takeWhile_nul (plain_nz hm.1), htl, e2]

/-- There is no answer. -/
theorem talk_eof {c : ClientConf} {w : CWorld} {o : COutcome} {log : Option (List UInt8)} {sent rest : List UInt8} {closed : Bool}
    (hw : ∀ t, w.rsp2 ≠ .err t) (hr : Reads closed [] w.rsp2 rest) (h : clientLast c w log sent = some o) :
    o.exit = some 2 ∧ o.out = [] ∧ o.err = bs "ERROR: " ++ argS (bs "Connection terminated by " ++ peerText (clientHost c w) c.port) ++ bs ".\n\n" := by
  obtain ⟨e1, -⟩ := reads_nil hr hw
  unfold clientLast at h
  rw [e1] at h
  unfold clientRsp at h
  rw [Option.bind_some, if_pos rfl] at h
  cases h
  unfold displayError
  dsimp only
  rw [if_neg (fun g => g.1 rfl)]
  refine ⟨rfl, rfl, ?_⟩
  dsimp only
  rw [show errHint c 1 = [] by unfold errHint; simp, List.append_nil]
  rfl

/-- The answer is a list of consoles. -/
theorem talk_ok {c : ClientConf} {w : CWorld} {o : COutcome} {log : Option (List UInt8)} {sent rest : List UInt8} {names : List (List UInt8)} {closed reset : Bool}
    (hn : ∀ n ∈ names, Plain n) (hne : names ≠ []) (hsz : answerSize reset names < maxSockLine) (hw : ∀ t, w.rsp2 ≠ .err t)
    (hr : Reads closed (protoStr tokOk ++ line (rspItems reset names)) w.rsp2 rest) (h : clientLast c w log sent = some o) :
    clientEnd c w log sent (clientHost c w) names reset = some o := by
  have hok := rspItems_ok (reset := reset) hn
  have e : protoStr tokOk ++ line (rspItems reset names) = (protoStr tokOk ++ ((rspItems reset names).map Item.render).flatten) ++ bs "\n" := by
    unfold line; simp
  have hl := answer_size reset names hne
  rw [e] at hr
  rw [← List.append_nil (_ ++ bs "\n")] at hr
  obtain ⟨e1, -⟩ := reads_line (by
    simp only [List.mem_append, not_or]
    exact ⟨by decide, (line_clean hok).2⟩) (by
    simp only [List.mem_append, not_or]
    exact ⟨by decide, (line_clean hok).1⟩) (by rw [← e]; omega) hr hw
  rw [← e] at e1
  have hrecv := recvRsp_ok [] (protoStr tokOk ++ line (rspItems reset names) ++ [0]) reset names hn rfl
  unfold clientLast at h
  rw [clientRsp_ok.2 ⟨_, e1, hrecv⟩, Option.bind_some, if_neg (by simp)] at h
  have : (reset && decide (names ≠ [])) = reset := by simp [hne]
  rw [this] at h
  exact h

/-- Whether an accepted request gets its answer. -/
theorem rspOk_cases {reset : Bool} {names : List (List UInt8)} (hn : ∀ n ∈ names, Plain n) (hne : names ≠ []) :
    rspOk maxSockLine reset names = some (if answerSize reset names < maxSockLine then some (protoStr tokOk ++ line (rspItems reset names)) else none) := by
  rw [rspOk_eq maxSockLine reset names (by rw [msl]; omega) hn, answer_size reset names hne]

theorem answerSize_perm {reset : Bool} {a b : List (List UInt8)} (h : a.Perm b) : answerSize reset a = answerSize reset b := by
  unfold answerSize
  rw [(h.map fun n => n.length + 11).sum_nat]

theorem rex_of_selection {sw : SrvWorld} {regex : Bool} {pats : List (List UInt8)} (h : selection sw regex pats ≠ []) :
    ¬ (regex = true ∧ sw.rex (if pats = [] then [0x2E, 0x2A] else alternation pats) = none) := by
  rintro ⟨h1, h2⟩
  apply h
  unfold selection
  rw [List.filter_eq_nil_iff]
  intro c _
  unfold selected
  rw [if_pos h1, h2]
  simp

theorem names_of {sw : SrvWorld} (ns : List sw.Con) : ns.map sw.name = (ns.map fun (i : sw.Con) => sw.cons[i]).map (·.name) := by
  rw [List.map_map]; rfl

/-- The request after the selection of consoles. -/
def srvReqSel (c : ClientConf) (w : CWorld) (n : Nat) : SrvReq := if n = 1 then { srvReqOf c w with bcast := false } else srvReqOf c w

theorem reqSel (c : ClientConf) (w : CWorld) (n : Nat) : (srvReqSel c w n).cmd = some c.cmd ∧ (srvReqSel c w n).force = (c.force && (c.cmd = .connect)) ∧
    (srvReqSel c w n).join = (c.join && (c.cmd = .connect)) ∧ (srvReqSel c w n).bcast = (c.bcast && (c.cmd = .connect) && n ≠ 1) ∧
    (srvReqSel c w n).user = some w.user ∧ (srvReqSel c w n).tty = w.tty ∧ (srvReqSel c w n).quiet = c.quiet := by
  unfold srvReqSel srvReqOf
  by_cases h : n = 1
  · rw [if_pos h]; simp [h]
  · rw [if_neg h]; simp [h]

theorem srvAnswer_refused {sw : SrvWorld} {c : ClientConf} {w : CWorld} {stk : List UInt8} {ns : List sw.Con} {m : List UInt8} {a : SrvOut sw}
    (h : srvQuery sw stk (srvReqOf c w) = some (.inr ns)) (hv : srvValidate sw stk (srvReqSel c w ns.length) ns = some (some m))
    (ha : srvAnswer sw stk (srvReqOf c w) = some a) : a = { out := m } := by
  unfold srvAnswer at ha
  rw [h, Option.bind_some] at ha
  dsimp only at ha
  rw [show (if ns.length = 1 then { srvReqOf c w with bcast := false } else srvReqOf c w : SrvReq) = srvReqSel c w ns.length from rfl, hv, Option.bind_some] at ha
  cases ha; rfl

theorem srvAnswer_accepted {sw : SrvWorld} {c : ClientConf} {w : CWorld} {stk : List UInt8} {ns : List sw.Con} {a : SrvOut sw}
    (h : srvQuery sw stk (srvReqOf c w) = some (.inr ns)) (hv : srvValidate sw stk (srvReqSel c w ns.length) ns = some none)
    (hn : ∀ n ∈ ns.map sw.name, Plain n) (hne : ns ≠ [])
    (ha : srvAnswer sw stk (srvReqOf c w) = some a) :
    a = if answerSize sw.resetCmd (ns.map sw.name) < maxSockLine then
      (if c.cmd = .query then { out := protoStr tokOk ++ line (rspItems sw.resetCmd (ns.map sw.name)) }
       else { out := protoStr tokOk ++ line (rspItems sw.resetCmd (ns.map sw.name)), closed := false,
              session := some ⟨c.cmd, some w.user, w.tty, c.quiet, c.force && (c.cmd = .connect), c.join && (c.cmd = .connect), c.bcast && (c.cmd = .connect) && ns.length ≠ 1, ns⟩ })
    else {} := by
  unfold srvAnswer at ha
  rw [h, Option.bind_some] at ha
  dsimp only at ha
  rw [show (if ns.length = 1 then { srvReqOf c w with bcast := false } else srvReqOf c w : SrvReq) = srvReqSel c w ns.length from rfl, hv, Option.bind_some] at ha
  dsimp only at ha
  obtain ⟨r1, r2, r3, r4, r5, r6, r7⟩ := reqSel c w ns.length
  rw [r1, r2, r3, r4, r5, r6, r7] at ha
  dsimp only at ha
  rw [rspOk_cases hn (by simpa using hne), Option.map_some] at ha
  by_cases hz : answerSize sw.resetCmd (ns.map sw.name) < maxSockLine
  · rw [if_pos hz] at ha ⊢
    cases ha; rfl
  · rw [if_neg hz] at ha ⊢
    cases ha; rfl

theorem perm_facts {sw : SrvWorld} {c : ClientConf} {w : CWorld} (hs : Sendable sw c w) {ns : List sw.Con}
    (g : (ns.map fun (i : sw.Con) => sw.cons[i]).Perm (selection sw c.regex c.consoles)) :
    (ns.map sw.name).Perm ((selection sw c.regex c.consoles).map (·.name)) ∧ ns.length = (selection sw c.regex c.consoles).length ∧
    ∀ n ∈ ns.map sw.name, Plain n ∧ n.length ≤ 1022 := by
  refine ⟨by rw [names_of]; exact g.map _, by simpa using g.length_eq, fun n hn => ?_⟩
  obtain ⟨i, -, rfl⟩ := List.mem_map.1 hn
  have := hs.cons sw.cons[i] (List.getElem_mem ..)
  exact ⟨this.1, this.2.2⟩

theorem plain_digits (n : Nat) : ∀ c ∈ dec n, 0 < c ∧ c < 128 ∧ ¬ isNl c := by
  intro c hc
  have h := (dec_spec n).2.1 c hc
  unfold digit at h
  unfold isNl
  have h1 := UInt8.le_iff_toNat_le.1 h.1
  have h2 := UInt8.le_iff_toNat_le.1 h.2
  rw [UInt8.lt_iff_toNat_lt, UInt8.lt_iff_toNat_lt, ← UInt8.toNat_inj, ← UInt8.toNat_inj]
  simp only [UInt8.reduceToNat, UInt8.toNat_ofNat] at h1 h2 ⊢
  omega

theorem plain_count {n : Nat} (hn : n < 2147483648) : Plain (bs "Found " ++ dec n ++ bs " matching consoles") ∧ Plain (busyMsg n) := by
  have hl := dec_length_le n 10 (by omega) (by omega)
  have key : ∀ a b : List UInt8, Plain a → Plain b → a.length + b.length ≤ 1000 → Plain (a ++ dec n ++ b) := by
    intro a b ha hb hab
    refine ⟨fun c hc => ?_, by simp only [List.length_append]; omega⟩
    rcases List.mem_append.1 hc with hc | hc
    · rcases List.mem_append.1 hc with hc | hc
      · exact ha.1 c hc
      · exact plain_digits n c hc
    · exact hb.1 c hc
  refine ⟨key _ _ (by decide) (by decide) (by decide), ?_⟩
  unfold busyMsg
  split
  · decide
  · exact key _ _ (by decide) (by decide) (by decide)

theorem selection_le (sw : SrvWorld) (regex : Bool) (pats : List (List UInt8)) : (selection sw regex pats).length ≤ sw.cons.length := List.length_filter_le ..

end Conman
