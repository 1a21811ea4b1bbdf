import Verif.Lemma.WorldObj
import Verif.Lemma.Log

/-
Effects of requests and of force, used by `Props/World*.lean`.
-/
namespace Conman
open Spec

/-! ### Waiting bytes -/

theorem enq_le (q d : List UInt8) (h : d.length ≤ queueCap) : enq q d = lastN queueCap (q ++ d) := by
  unfold enq
  rw [if_neg]
  rw [objBufSize_eq]; have := queueCap_eq; rw [objBufSize_eq] at this; omega

theorem enq_nil (q : List UInt8) (h : q.length ≤ queueCap) : enq q [] = q := by
  rw [enq_le _ _ (by simp), List.append_nil, lastN_eq_self h]

theorem lastN_append_lastN (k : Nat) (a b : List UInt8) : lastN k (lastN k a ++ b) = lastN k (a ++ b) := by
  by_cases h : k ≤ b.length
  · rw [lastN_append_ge h, lastN_append_ge h]
  · rw [lastN_append_le (by omega), lastN_append_le (by omega), lastN_lastN]
    congr 2; omega

theorem enqs_eq (q : List UInt8) (out : List (List UInt8)) (hq : q.length ≤ queueCap)
    (h : ∀ b ∈ out, b.length ≤ queueCap) : out.foldl enq q = lastN queueCap (q ++ out.flatten) := by
  induction out generalizing q with
  | nil => simp [lastN_eq_self hq]
  | cons b out ih =>
    simp only [List.foldl_cons, List.flatten_cons]
    rw [ih _ (enq_length _ _) (fun x hx => h x (by simp [hx])), enq_le _ _ (h b (by simp)),
      lastN_append_lastN, List.append_assoc]

theorem Obj.write_data_pend (o : Obj) (d : List UInt8) (he : o.eof = false) (hc : o.pend.length ≤ queueCap) :
    (o.write d false).pend = enq o.pend d := by
  unfold Obj.write
  split
  · rename_i h; subst h; rw [enq_nil _ hc]
  · rw [if_neg (by simp [he]), if_neg (by simp)]

theorem Obj.write_info_pend (o : Obj) (d : List UInt8) (he : o.eof = false) (hq : ¬ (o.kind = .client ∧ o.quiet = true))
    (hc : o.pend.length ≤ queueCap) : (o.write d true).pend = enq o.pend d := by
  unfold Obj.write
  split
  · rename_i h; subst h; rw [enq_nil _ hc]
  · rw [if_neg (by simp [he]), if_neg (by simpa using hq)]

theorem writes_pend (l : List (List UInt8)) (o : Obj) (he : o.eof = false) (hc : o.pend.length ≤ queueCap) :
    (l.foldl (fun o d => o.write d false) o).pend = l.foldl enq o.pend := by
  induction l generalizing o with
  | nil => rfl
  | cons d l ih =>
    simp only [List.foldl_cons]
    rw [ih, o.write_data_pend d he hc]
    · rw [← he]; simp
    · rw [o.write_data_pend d he hc]; exact enq_length _ _

theorem Obj.writeLog_pend (o : Obj) (clk : Nat → List UInt8) (hclk : ∀ k, (clk k).length = 20) (d : List UInt8)
    (hd : d.length ≤ queueCap) (he : o.eof = false) (hc : o.pend.length ≤ queueCap) :
    ∃ st k txt, logChunks o.opts clk o.line o.stamps [d] = some (st, k, txt) ∧
      (o.writeLog clk d).pend = lastN queueCap (o.pend ++ txt) := by
  obtain ⟨r, hr, hb⟩ : ∃ r, writeLogData o.opts clk o.line o.stamps d = some r ∧ ∀ b ∈ r.out, b.length ≤ queueCap := by
    by_cases hp : o.opts.sanitize = true ∨ o.opts.timestamp = true
    · obtain ⟨r, h, -, -, -, hb⟩ := writeLogData_eq o.opts clk hclk hp o.line o.stamps d
      rw [logBufCap_eq] at hb
      exact ⟨r, h, hb⟩
    · simp only [not_or, Bool.not_eq_true] at hp
      exact ⟨_, by unfold writeLogData; rw [if_pos hp], by simpa using hd⟩
  refine ⟨r.st, r.k, r.out.flatten, ?_, ?_⟩
  · simp [logChunks, hr]
  · unfold Obj.writeLog
    rw [hr]
    simp only [Option.getD_some]
    rw [writes_pend]
    · exact enqs_eq _ _ hc hb
    · exact he
    · exact hc

theorem Passive.eofStays {o o' : Obj} (h : Passive env o o') : o.eof = true → o'.eof = true := by
  induction h with
  | refl => exact id
  | trans _ _ h1 h2 => exact fun h => h2 (h1 h)
  | info => intro h; simpa using h
  | links => exact id
  | orphan => exact fun _ => rfl

theorem enq_is (q d : List UInt8) : ∃ d', enq q d = lastN queueCap (q ++ d') := ⟨_, rfl⟩

theorem enqs_is (q : List UInt8) (hq : q.length ≤ queueCap) (out : List (List UInt8)) :
    ∃ x, out.foldl enq q = lastN queueCap (q ++ x) := by
  induction out generalizing q with
  | nil => exact ⟨[], by simp [lastN_eq_self hq]⟩
  | cons b out ih =>
    obtain ⟨d, hd⟩ := enq_is q b
    obtain ⟨x, hx⟩ := ih (enq q b) (enq_length _ _)
    refine ⟨d ++ x, ?_⟩
    rw [List.foldl_cons, hx, hd, lastN_append_lastN, List.append_assoc]

theorem enqs_mem (q : List UInt8) (hq : q.length ≤ queueCap) (out : List (List UInt8)) (m : List UInt8)
    (hm : m ∈ out) (hl : m.length ≤ queueCap) :
    ∃ pre post, out.foldl enq q = lastN queueCap (q ++ (pre ++ m ++ post)) := by
  obtain ⟨a, b, rfl⟩ := List.append_of_mem hm
  obtain ⟨x, hx⟩ := enqs_is q hq a
  rw [List.foldl_append, List.foldl_cons, hx]
  obtain ⟨y, hy⟩ := enqs_is (enq (lastN queueCap (q ++ x)) m) (enq_length _ _) b
  refine ⟨x, y, ?_⟩
  rw [hy, enq_le _ _ hl, lastN_append_lastN, List.append_assoc, lastN_append_lastN]
  simp only [List.append_assoc]

/-! ### Force -/

/-- The previous writers get the message before anything else happens to them. -/
theorem linkObjs_told {w : World} (h : LInv w) (env : Env) {src dst x : Nat} (ok : LinkOk w src dst)
    (hx : x ∈ w.stealSet src dst) :
    Passive env ((w.obj x).write (env.txt (.stolenBy src dst) w.tick) true) ((w.linkObjs env src dst).obj x) := by
  obtain ⟨hxs, hxd⟩ := stealSet_ne h ok hx
  obtain ⟨hxw, hk, hc, hf⟩ := stealSet_mem hx
  have hemp : (w.obj dst).writers.isEmpty = false := by
    cases hw : (w.obj dst).writers with
    | nil => rw [hw] at hxw; simp at hxw
    | cons => rfl
  rw [linkObjs_obj]
  refine Passive.trans ?_ (.links _ _ _)
  unfold World.linkPre
  rw [if_pos ⟨hk, hc⟩]
  simp only [hf, hemp, Bool.not_false, Bool.and_self, if_true]
  have ha := notify_step h env dst (.stolenBy src dst) hc
  have ex := (notify_exact h env dst (.stolenBy src dst)).1 x
  rw [if_pos (Or.inr hxw)] at ex
  rw [← ex]
  have hb := notes_to_step env (fun x => Note.stolenFrom x dst) (w.obj dst).writers (w.notify env dst (.stolenBy src dst)) src
      (by rw [(ha.SL.1 src).1, hk]; rfl)
  have hl := (h.same ha.SL).same hb.SL
  exact Passive.trans (hb.touched x).passive ((unlinkAll_spec env (w.obj dst).writers hl).pstep.touched x)

theorem Passive.told {o o' : Obj} {m : List UInt8} (h : Passive env (o.write m true) o') (he : o.eof = false)
    (hq : ¬ (o.kind = .client ∧ o.quiet = true)) (hc : o.pend.length ≤ queueCap) :
    ∃ msgs : List (List UInt8), m ∈ msgs ∧ o'.pend = msgs.foldl enq o.pend := by
  obtain ⟨ms, hm⟩ := h.pend
  refine ⟨m :: ms, by simp, ?_⟩
  rw [hm, o.write_info_pend m he hq hc, List.foldl_cons]

/-- Between `w0` and `v` client `x` lost its links to `c`, who took one of `cons`. -/
structure Robbed (env : Env) (w0 v : World) (c : Nat) (cons : List Nat) (x : Nat) : Prop where
  rd : (v.obj x).readers = []
  wr : (v.obj x).writers = []
  eof : (v.obj x).eof = true
  told : (w0.obj x).eof = false → (w0.obj x).quiet = false → ∃ con ∈ cons, x ∈ (w0.obj con).writers ∧
    ∃ msgs : List (List UInt8), env.txt (.stolenBy c con) w0.tick ∈ msgs ∧ (v.obj x).pend = msgs.foldl enq (w0.obj x).pend

structure Kept (w0 v : World) (x : Nat) : Prop where
  rd : (v.obj x).readers = (w0.obj x).readers
  wr : (v.obj x).writers = (w0.obj x).writers
  eof : (v.obj x).eof = (w0.obj x).eof

/-- While `c` is being linked to the consoles `pre` with force. -/
structure Taking (env : Env) (w0 v : World) (c : Nat) (pre : List Nat) : Prop where
  tick : v.tick = w0.tick
  pass : ∀ x, x ≠ c → (w0.obj x).kind = .client → Passive env (w0.obj x) (v.obj x)
  own : ∀ con ∈ pre, (v.obj con).writers = [c]
  cl : ∀ x, x ≠ c → (w0.obj x).kind = .client →
    (Kept w0 v x ∧ ∀ con ∈ pre, x ∉ (w0.obj con).writers) ∨ Robbed env w0 v c pre x

theorem PStep.tick {w w' : World} (h : PStep env w w') : w'.tick = w.tick := by
  have := h.rest; simp only [World.rest, Prod.mk.injEq] at this; exact this.2.1

theorem Taking.link {env : Env} {w0 v : World} {c : Nat} {pre : List Nat} (t : Taking env w0 v c pre)
    (hl0 : LInv w0) (hcap : ∀ j, (w0.obj j).pend.length ≤ queueCap) (hkk : ∀ j, (v.obj j).kind = (w0.obj j).kind)
    (hl : LInv v) {con : Nat} (ok : LinkOk v c con) (hcli : (v.obj c).kind = .client)
    (hcon : (v.obj con).kind.isConsole = true) (hf : (v.obj c).force = true) :
    Taking env w0 (v.linkObjs env c con) c (pre ++ [con]) := by
  have sp := linkObjs_spec hl env ok
  have hS : v.stealSet c con = (v.obj con).writers := by
    unfold World.stealSet; rw [if_pos ⟨hcli, hcon, hf⟩]
  have hne : ∀ y ∈ (v.obj con).writers, y ≠ con := by
    rintro y hy rfl
    rw [← hS] at hy; exact (stealSet_ne hl ok hy).2 rfl
  refine ⟨by rw [sp.pstep.tick, t.tick], fun x hx hk => (t.pass x hx hk).trans (sp.pstep.touched x), ?_, ?_⟩
  · intro a ha
    rw [sp.wr a, hS]
    have hca : a ∉ (v.obj con).writers := by
      intro hh
      rw [← hS] at hh
      have hkc := stealSet_client hl hh
      rcases List.mem_append.1 ha with h1 | h1
      · have h2 := t.own a h1
        rcases hl.kindW (a := c) (b := a) (by rw [h2]; simp) with h3 | h3
        · rw [hkc] at h3; simp [OKind.isConsole] at h3
        · rw [hcli] at h3; simp [OKind.isConsole] at h3
      · simp only [List.mem_singleton] at h1; subst h1; rw [hkc] at hcon; simp [OKind.isConsole] at hcon
    rw [if_neg hca]
    by_cases hac : a = con
    · subst hac
      simp only [if_true]
      rw [List.filter_eq_nil_iff.2 (by intro y hy; simp [hy])]; rfl
    · rcases List.mem_append.1 ha with h1 | h1
      · rw [t.own a h1]
        have : c ∉ (v.obj con).writers := fun hh => ok.new ((hl.sym c con).2 hh)
        simp [hac, this]
      · simp only [List.mem_singleton] at h1; exact absurd h1 hac
  · intro x hx hk
    have hkv : (v.obj x).kind = .client := by rw [hkk]; exact hk
    obtain ⟨hr, hw⟩ := sp.client_links hl x hkv
    have hxc : x ≠ con := by rintro rfl; rw [hkv] at hcon; simp [OKind.isConsole] at hcon
    rw [hS] at hr hw
    simp only [if_neg hx, List.append_nil, if_neg hxc] at hr hw
    by_cases hxs : x ∈ (v.obj con).writers
    · right
      rw [if_pos hxs] at hr hw
      refine ⟨hr, hw, linkObjs_stolen_eof hl env (by rw [hS]; exact hxs), ?_⟩
      intro he hq
      rcases t.cl x hx hk with ⟨k, hno⟩ | r
      · have hold : x ∈ (w0.obj con).writers := by
          have h1 := (hl.sym x con).2 hxs
          rw [k.rd] at h1; exact (hl0.sym x con).1 h1
        have sf := (t.pass x hx hk).same
        have hto := linkObjs_told hl env ok (x := x) (by rw [hS]; exact hxs)
        obtain ⟨m1, hm1⟩ := (t.pass x hx hk).pend
        obtain ⟨m2, hm2, hp2⟩ := hto.told (by rw [k.eof]; exact he) (by rw [sf.quiet, hq]; simp)
          (by rw [hm1]; rcases List.eq_nil_or_concat m1 with h | ⟨l, b, h⟩
              · subst h; exact hcap x
              · subst h; rw [List.concat_eq_append, List.foldl_append, List.foldl_cons, List.foldl_nil]; exact enq_length _ _)
        refine ⟨con, by simp, hold, m1 ++ m2, ?_, ?_⟩
        · rw [← t.tick]; simp [hm2]
        · rw [hp2, hm1, List.foldl_append]
      · exfalso
        have h1 := (hl.sym x con).2 hxs
        rw [r.rd] at h1; simp at h1
    · rw [if_neg hxs] at hr hw
      have heq : ((v.linkObjs env c con).obj x).eof = (v.obj x).eof := by
        cases he : (v.obj x).eof
        · cases he' : ((v.linkObjs env c con).obj x).eof
          · rfl
          · rcases sp.eofNew x he' with h1 | h1
            · rw [he] at h1; simp at h1
            · rw [hS] at h1; exact absurd h1.2 hxs
        · exact sp.eofOld x he
      rcases t.cl x hx hk with ⟨k, hno⟩ | r
      · left
        refine ⟨⟨by rw [hr, k.rd], by rw [hw, k.wr], by rw [heq, k.eof]⟩, ?_⟩
        intro a ha
        rcases List.mem_append.1 ha with h1 | h1
        · exact hno a h1
        · simp only [List.mem_singleton] at h1; subst h1
          intro hh
          have h1 := (hl0.sym x a).2 hh
          rw [← k.rd] at h1
          exact hxs ((hl.sym x a).1 h1)
      · right
        refine ⟨by rw [hr, r.rd], by rw [hw, r.wr], by rw [heq, r.eof], ?_⟩
        intro he hq
        obtain ⟨con', hc', hx', msgs, hm, hp⟩ := r.told he hq
        obtain ⟨m2, hm2⟩ := (sp.pstep.touched x).pend
        refine ⟨con', by simp [hc'], hx', msgs ++ m2, by simp [hm], ?_⟩
        rw [hm2, hp, List.foldl_append]

theorem Taking.mod {env : Env} {w0 v : World} {c : Nat} {pre : List Nat} (t : Taking env w0 v c pre)
    {v' : World} (ht : v'.tick = v.tick) (h : ∀ x, x ≠ c → v'.obj x = v.obj x) (hc : c ∉ pre) :
    Taking env w0 v' c pre := by
  refine ⟨by rw [ht, t.tick], fun x hx hk => by rw [h x hx]; exact t.pass x hx hk, fun con hcon => ?_, fun x hx hk => ?_⟩
  · have : con ≠ c := by rintro rfl; exact hc hcon
    rw [h con this]; exact t.own con hcon
  · rcases t.cl x hx hk with ⟨k, hno⟩ | r
    · left; exact ⟨⟨by rw [h x hx]; exact k.rd, by rw [h x hx]; exact k.wr, by rw [h x hx]; exact k.eof⟩, hno⟩
    · right; exact ⟨by rw [h x hx]; exact r.rd, by rw [h x hx]; exact r.wr, by rw [h x hx]; exact r.eof,
        by rw [h x hx]; exact r.told⟩

/-- What a forced connect request does. -/
theorem grant_force {w : World} (h : WInv w) (env : Env) (c : Nat) (q : Req) (hq : ReqShape q)
    (hc : c ∉ w.live) (ok : w.reqOk q) (hcmd : q.cmd = .connect) (hf : q.force = true) :
    (∀ con ∈ q.consoles, ((w.grant env c q).obj con).writers = [c]) ∧
    ∀ con ∈ q.consoles, ∀ x ∈ (w.obj con).writers, Robbed env w (w.grant env c q) c q.consoles x := by
  obtain ⟨hnd, hcons⟩ := ok
  obtain ⟨-, -, hno⟩ := h.l.fresh hc
  have hcc : ∀ x ∈ q.consoles, x ≠ c := by rintro x hx rfl; exact hc (hcons x hx).1
  have s0 := Setup.init h q hc
  have hk0 : ((w.newClient c q).obj c).kind = .client := by rw [newClient_obj, if_pos rfl]
  have hcl : c ∈ (w.newClient c q).live := by show c ∈ w.live ++ [c]; simp
  have hcons' : ∀ x ∈ q.consoles, x ∈ (w.newClient c q).live ∧ ((w.newClient c q).obj x).kind.isConsole = true := by
    intro x hx
    have := hcons x hx
    rw [newClient_obj, if_neg (hcc x hx)]
    refine ⟨?_, this.2⟩
    show x ∈ w.live ++ [c]
    simp [this.1]
  have l0 : LInv (w.newClient c q) := s0.inv.l
  have cap0 : ∀ j, ((w.newClient c q).obj j).pend.length ≤ queueCap := fun j => (s0.inv.oi j).cap
  have t0 : Taking env (w.newClient c q) (w.newClient c q) c [] :=
    ⟨rfl, fun x _ _ => .refl _, by simp, fun x _ _ => Or.inl ⟨⟨rfl, rfl, rfl⟩, by simp⟩⟩
  have f0 : ((w.newClient c q).obj c).force = true := by rw [newClient_obj, if_pos rfl]; exact hf
  -- one more console
  have key : ∀ (v : World) (pre : List Nat), Setup (w.newClient c q) v c pre → Taking env (w.newClient c q) v c pre →
      (v.obj c).force = true → ∀ con ∈ q.consoles, con ∉ pre →
      Setup (w.newClient c q) (v.linkObjs env c con) c (pre ++ [con]) ∧
      Taking env (w.newClient c q) (v.linkObjs env c con) c (pre ++ [con]) ∧
      ((v.linkObjs env c con).obj c).force = true := by
    intro v pre s t hfv con hcon hn
    obtain ⟨okl, s1⟩ := s.link env hk0 (hcons' con hcon).2 ⟨hcl, (hcons' con hcon).1⟩ hn
    have sp := linkObjs_spec s.inv.l env okl
    refine ⟨s1, ?_, by rw [(sp.pstep.touched c).same.force]; exact hfv⟩
    exact t.link l0 cap0 s.kind s.inv.l okl (by rw [s.kind, hk0]) (by rw [s.kind]; exact (hcons' con hcon).2) hfv
  have chk : ∀ (v : World) (con x : Nat), x ≠ c → (v.checkState env c con).obj x = v.obj x := by
    intro v con x hx
    unfold World.checkState
    split
    · rfl
    · unfold World.note; rw [World.mod_ne _ _ hx]
  have chkt : ∀ (v : World) (con : Nat), (v.checkState env c con).tick = v.tick := by
    intro v con; unfold World.checkState; split <;> rfl
  have chkf : ∀ (v : World) (con : Nat), ((v.checkState env c con).obj c).force = (v.obj c).force := by
    intro v con; unfold World.checkState; split
    · rfl
    · unfold World.note; rw [World.mod_self]; exact (SameFlags.write _ _ _).force
  have fold : ∀ (l : List Nat) (v : World) (pre : List Nat), Setup (w.newClient c q) v c pre →
      Taking env (w.newClient c q) v c pre → (v.obj c).force = true → (pre ++ l).Nodup → (∀ x ∈ pre ++ l, x ∈ q.consoles) →
      Taking env (w.newClient c q) (l.foldl (fun w con => (w.linkObjs env c con).checkState env c con) v) c (pre ++ l) := by
    intro l
    induction l with
    | nil => intro v pre _ t _ _ _; simpa using t
    | cons a l ih =>
      intro v pre s t hfv hnd hl
      have hn : a ∉ pre := by
        intro hp
        rw [List.nodup_append] at hnd
        exact hnd.2.2 a hp a (by simp) rfl
      obtain ⟨s1, t1, f1⟩ := key v pre s t hfv a (hl a (by simp)) hn
      have s2 := s1.lstep (checkState_lstep _ env c a (by rw [s1.kind]; exact hk0))
      have hcp : c ∉ pre ++ [a] := by
        intro hh
        exact hcc c (hl c (by
          rcases List.mem_append.1 hh with h1 | h1
          · simp [h1]
          · simp at h1; simp [h1])) rfl
      have t2 := t1.mod (chkt _ a) (chk _ a) hcp
      have := ih _ _ s2 t2 (by rw [chkf]; exact f1) (by simpa using hnd) (by
        intro x hx; apply hl; simpa using hx)
      simpa using this
  have hfin : Taking env (w.newClient c q) (w.grant env c q) c q.consoles := by
    unfold World.grant
    simp only
    split
    · rename_i hcm _; rw [hcmd] at hcm; simp at hcm
    · rename_i con _ hcs
      rw [hcs]
      have hcon : con ∈ q.consoles := by rw [hcs]; simp
      obtain ⟨s1, t1, f1⟩ := key _ _ s0 t0 f0 con hcon (by simp)
      have ok2 : LinkOk ((w.newClient c q).linkObjs env c con) con c := by
        refine ⟨Or.inr ⟨by rw [s1.kind]; exact (hcons' con hcon).2, by rw [s1.kind, hk0]; rfl⟩, ?_,
          by rw [s1.live]; exact ⟨(hcons' con hcon).1, hcl⟩⟩
        intro hm
        have := (s1.inv.l.sym con c).1 hm
        rw [s1.wr] at this; simp at this
      have hS : ((w.newClient c q).linkObjs env c con).stealSet con c = [] := by
        unfold World.stealSet
        rw [if_neg]
        rintro ⟨h1, _⟩
        rw [s1.kind] at h1
        exact not_client_of_console (hcons' con hcon).2 h1
      have hpre : ((w.newClient c q).linkObjs env c con).linkPre env con c = (w.newClient c q).linkObjs env c con := by
        unfold World.linkPre
        rw [if_neg]
        rintro ⟨h1, _⟩
        rw [s1.kind] at h1
        exact not_client_of_console (hcons' con hcon).2 h1
      have sp := linkObjs_spec s1.inv.l env ok2
      have pl := sp.plain hS
      -- clients other than c and writers of consoles are untouched
      have hob := linkObjs_obj ((w.newClient c q).linkObjs env c con) env con c
      rw [hpre] at hob
      have t2 : Taking env (w.newClient c q) (((w.newClient c q).linkObjs env c con).linkObjs env con c) c [con] := by
        have hne : con ≠ c := hcc con hcon
        have hxe : ∀ x, x ≠ c → ((w.newClient c q).obj x).kind = .client →
            (((w.newClient c q).linkObjs env c con).linkObjs env con c).obj x = ((w.newClient c q).linkObjs env c con).obj x := by
          intro x hx hk
          have hxc : x ≠ con := by
            rintro rfl; exact not_client_of_console (hcons' x hcon).2 hk
          rw [hob x]; simp [hx, hxc]
        refine ⟨by rw [sp.pstep.tick, t1.tick], fun x hx hk => by rw [hxe x hx hk]; exact t1.pass x hx hk, ?_, ?_⟩
        · intro a ha
          have hac : a ≠ c := by simp only [List.mem_singleton] at ha; rw [ha]; exact hne
          rw [pl.2 a, t1.own a (by simpa using ha), if_neg hac]; rfl
        · intro x hx hk
          rcases t1.cl x hx hk with ⟨k, hno⟩ | r
          · left; exact ⟨⟨by rw [hxe x hx hk]; exact k.rd, by rw [hxe x hx hk]; exact k.wr, by rw [hxe x hx hk]; exact k.eof⟩, by simpa using hno⟩
          · right; exact ⟨by rw [hxe x hx hk]; exact r.rd, by rw [hxe x hx hk]; exact r.wr, by rw [hxe x hx hk]; exact r.eof,
              by rw [hxe x hx hk]; exact r.told⟩
      exact t2.mod (chkt _ con) (chk _ con) (by simpa using (hcc con hcon).symm)
    · have := fold q.consoles _ [] s0 t0 f0 (by simpa using hnd) (by simp)
      simpa using this
    · rename_i hcm _; rw [hcmd] at hcm; simp at hcm
  refine ⟨hfin.own, fun con hcon x hx => ?_⟩
  have hxc : x ≠ c := by rintro rfl; exact (hno con).2 hx
  have hkx : (w.obj x).kind = .client := by
    rcases h.l.kindW hx with h1 | h1
    · exact h1.1
    · rw [(hcons con hcon).2] at h1; simp at h1
  have e0 : ∀ j, j ≠ c → (w.newClient c q).obj j = w.obj j := fun j hj => by rw [newClient_obj, if_neg hj]
  rcases hfin.cl x hxc (by rw [e0 x hxc]; exact hkx) with ⟨_, hn⟩ | r
  · exfalso
    have := hn con hcon
    rw [e0 con (hcc con hcon)] at this
    exact this hx
  · refine ⟨r.rd, r.wr, r.eof, ?_⟩
    intro he hq
    have := r.told (by rw [e0 x hxc]; exact he) (by rw [e0 x hxc]; exact hq)
    obtain ⟨con', hc', hx', msgs, hm, hp⟩ := this
    rw [e0 con' (hcc con' hc')] at hx'
    rw [e0 x hxc] at hp
    exact ⟨con', hc', hx', msgs, hm, hp⟩

end Conman
