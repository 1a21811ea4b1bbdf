import Verif.Lemma.RacesDone

/-
  C90: sessions that are set up and closed by several threads at once.
-/

namespace Conman

open Spec

/-! For the examples: consoles 0 and 1, a log 2, and room for clients. -/

/-- The objects at the start: data of console 0 goes to the log. -/
def c90store : RcStore := fun n =>
  if n = 0 then ⟨.console, true, true, false, [2], []⟩
  else if n = 1 then ⟨.console, true, true, false, [], []⟩
  else if n = 2 then ⟨.log, true, true, false, [], [0]⟩
  else ⟨.client, false, false, false, [], []⟩

/-- The daemon at the start. -/
def c90start : RcSys := ⟨c90store, [], []⟩

/-- Both consoles are up. -/
def c90up : Nat → Nat := fun _ => 0

/-- `n` times. -/
def c90times (n : Nat) (e : RcEv) : List RcEv := List.replicate n e

theorem c90is : RcStart c90store := by
  have cases4 : ∀ n, n = 0 ∨ n = 1 ∨ n = 2 ∨
      c90store n = ⟨.client, false, false, false, [], []⟩ := by
    intro n
    by_cases a : n = 0
    · exact .inl a
    by_cases b : n = 1
    · exact .inr (.inl b)
    by_cases c : n = 2
    · exact .inr (.inr (.inl c))
    · right; right; right
      simp [c90store, a, b, c]
  have e0 : c90store 0 = ⟨.console, true, true, false, [2], []⟩ := rfl
  have e1 : c90store 1 = ⟨.console, true, true, false, [], []⟩ := rfl
  have e2 : c90store 2 = ⟨.log, true, true, false, [], [0]⟩ := rfl
  refine ⟨?_, ?_, ?_, ?_, ?_⟩
  · intro a b
    rcases cases4 a with rfl | rfl | rfl | ea <;> rcases cases4 b with rfl | rfl | rfl | eb <;>
      simp_all
    · rintro rfl; rw [e2] at eb; cases eb
    · rintro rfl; rw [e0] at ea; cases ea
  · intro a b hb
    rcases cases4 a with rfl | rfl | rfl | ea
    · rw [e0] at hb
      have hb := List.mem_singleton.mp hb
      subst hb
      exact ⟨.inr (.inr ⟨rfl, rfl⟩), rfl, rfl⟩
    · cases hb
    · cases hb
    · rw [ea] at hb; cases hb
  · intro a ka
    rcases cases4 a with rfl | rfl | rfl | ea
    · cases ka
    · cases ka
    · cases ka
    · rw [ea]
  · intro a la
    rcases cases4 a with rfl | rfl | rfl | ea
    · rfl
    · rfl
    · rfl
    · rw [ea] at la; cases la
  · intro a pa
    rcases cases4 a with rfl | rfl | rfl | ea
    · cases pa
    · cases pa
    · cases pa
    · rw [ea] at pa; cases pa

/-- Three clients come, one after the other or at the same time, data is read,
    consoles give notices, and one of the clients leaves. -/
def c90day : List RcEv :=
  [.start (.connect 3 [0] false false) c90up, .start (.monitor 4 0) c90up] ++ c90times 3 (.run 0) ++
  c90times 4 (.run 1) ++ [.act (.feed 0)] ++ c90times 12 (.run 0) ++ c90times 3 .main ++
  c90times 8 (.run 1) ++ c90times 9 (.run 0) ++ c90times 9 .main ++
  [.start (.connect 5 [0] true false) c90up] ++ c90times 60 (.run 2) ++
  [.act (.close 3), .main, .main, .main, .main, .act (.notice 0)] ++ c90times 14 .main

/-! ### C90 -/

/-- **C90, as far as it holds.**  Threads take turns in any way.  If no client is
    closed or changed between read-only and read-write while another session is
    being set up, and no forced request is served together with a broadcast
    request, then no thread ever uses memory that was given back; at any time no
    object refers to such memory; and whenever all threads are through, both ends
    of every connection agree. -/
theorem C90_calm_partial {σ : RcStore} {evs : List RcEv} (h : RcStart σ)
    (c : RcSys.calm ⟨σ, [], []⟩ evs) :
    ∃ s, RcSys.run ⟨σ, [], []⟩ evs = some s ∧ rcTidy s.σ ∧
      (s.main = [] → s.serving = [] → rcSym s.σ) := by
  obtain ⟨s, e, g⟩ := good_run (good_start h) c
  refine ⟨s, e, ?_, ?_⟩
  · intro a
    exact ⟨fun b hb => (g.links.rdL a b hb).2.1, fun b hb => (g.links.wrL b a hb).1⟩
  · intro m0 s0
    have em : ∀ t ∈ s.view, t.todo = [] := by
      intro t ht
      rcases List.mem_cons.mp ht with rfl | ht
      · rw [m0]; rfl
      · obtain ⟨t', ht', rfl⟩ := List.mem_map.mp ht
        rw [RcSys.serving, List.map_eq_nil_iff, List.filter_eq_nil_iff] at s0
        have := s0 t' ht'
        cases e : t'.todo with
        | nil => rfl
        | cons => rw [e] at this; simp at this
    refine RcInv.sym g fun a b => ⟨?_, ?_⟩
    · rintro ⟨t, ht, hj⟩; rw [em t ht] at hj; cases hj
    · rintro ⟨t, ht, hj⟩; rw [em t ht] at hj; cases hj

set_option maxRecDepth 4000 in
/-- A day with two sessions at the same time and a forced one; in the end client 3
    is gone, client 4 reads console 0 and client 5 reads and writes it. -/
example : RcStart c90store ∧ RcSys.calm ⟨c90store, [], []⟩ c90day ∧
    ∃ s, RcSys.run ⟨c90store, [], []⟩ c90day = some s ∧ s.main.isEmpty = true ∧
      s.serving = [] ∧ (s.σ 0).rd = [2, 4, 5] ∧ (s.σ 0).wr = [5] ∧ (s.σ 3).live = false ∧
      (s.σ 5).rd = [0] ∧ (s.σ 5).wr = [0] := by
  refine ⟨c90is, calmly_calm (by decide +kernel), _, rfl, ?_⟩
  decide +kernel

/-- **C90 (sessions stay).**  If moreover no request is forced: whenever a thread
    has finished to serve a request that was not refused, the client is connected
    as it asked for, for as long as it is not closed. -/
theorem C90_served {σ : RcStore} {evs : List RcEv} {s : RcSys} {t : RcTh} (h : RcStart σ)
    (c : RcSys.calm ⟨σ, [], []⟩ evs) (m : ∀ ev ∈ evs, rcMild ev)
    (e : RcSys.run ⟨σ, [], []⟩ evs = some s) (ht : t ∈ s.ths) (fin : t.todo = [])
    (acc : (s.σ t.req.client).pub = true) (open' : s.closing = false) :
    ∀ p ∈ t.req.pairs, rcLinked s.σ p.1 p.2 := by
  obtain ⟨s', e', g⟩ := good_run (good_start h) c
  rw [e] at e'
  cases e'
  have d := done_run (good_start h) done_start c m e
  have hv : (⟨some t.req, t.todo.map RcI.strip⟩ : RcT) ∈ s.view :=
    List.mem_cons_of_mem _ (List.mem_map.mpr ⟨t, ht, rfl⟩)
  rintro ⟨a, b⟩ pr
  rcases d.done _ hv t.req rfl with w | ⟨w, _⟩ | ⟨t', ht', w⟩ | w
  · rcases w a b pr with v | v
    · rw [RcT.pend, fin] at v; cases v
    · exact v
  · rw [acc] at w; cases w
  · exfalso
    have tg := (g.shape.retire t' ht' _ w).1
    have et : t' = ⟨none, s.main.map RcI.strip⟩ := by
      rcases List.mem_cons.mp ht' with e | ht'
      · exact e
      · obtain ⟨t'', _, rfl⟩ := List.mem_map.mp ht'; cases tg
    subst et
    obtain ⟨j, hj, ej⟩ := List.mem_map.mp w
    have ej := strip_retire.mpr ej
    subst ej
    have : s.closing = true := List.any_eq_true.mpr ⟨_, hj, rfl⟩
    rw [open'] at this; cases this
  · rw [(g.links.used _).2 acc] at w; cases w

/-- Client 3 reads and writes console 0, while client 4 asks for both consoles. -/
def c90two : List RcEv :=
  [.start (.connect 3 [0] false false) c90up, .start (.connect 4 [0, 1] false true) c90up] ++
  c90times 7 (.run 0) ++ c90times 9 (.run 1) ++ c90times 30 (.run 0) ++ c90times 30 (.run 1)

/-- Both have what they asked for. -/
example : RcSys.calm ⟨c90store, [], []⟩ c90two ∧ (∀ ev ∈ c90two, rcMild ev) ∧
    ∃ s, RcSys.run ⟨c90store, [], []⟩ c90two = some s ∧ s.closing = false ∧
      s.ths.map (fun t => (t.todo.isEmpty, (s.σ t.req.client).pub, t.req.pairs)) =
      [(true, true, [(3, 0), (0, 3)]), (true, true, [(4, 0), (4, 1)])] := by
  refine ⟨calmly_calm (by decide +kernel), ?_, _, rfl, by decide +kernel, by decide +kernel⟩
  intro ev hev
  simp only [c90two, c90times, List.cons_append, List.nil_append, List.append_assoc,
    List.mem_cons, List.mem_append, List.mem_replicate] at hev
  rcases hev with rfl | rfl | ⟨_, rfl⟩ | ⟨_, rfl⟩ | ⟨_, rfl⟩ | ⟨_, rfl⟩ <;>
    first | rfl | trivial

/-- **C90 (consoles stay).**  Whatever happens, consoles and logs are never given
    back. -/
theorem C90_kept {σ : RcStore} {evs : List RcEv} {s : RcSys}
    (e : RcSys.run ⟨σ, [], []⟩ evs = some s) {x : Nat} (k : (σ x).kind ≠ .client)
    (l : (σ x).live = true) : (s.σ x).live = true :=
  safe_run (s := ⟨σ, [], []⟩)
    ⟨(by intro i hi; cases hi), (by intro t ht; cases ht)⟩ e x k l

/-- They are still there after such a day. -/
example : (RcSys.run c90start c90day).isSome = true ∧ (c90store 2).kind ≠ .client ∧
    (c90store 2).live = true := ⟨by decide +kernel, by decide, rfl⟩

/-! ### What the daemon does not keep apart -/

/-- **C90 (negation: hanging up early).**  A client that hangs up while its session
    is set up is given back by the main thread, although the thread of the request
    goes on to use it. -/
theorem C90_hangup_crashes : ∃ evs, RcStart c90store ∧ RcSys.run c90start evs = none ∧
    ∀ ev ∈ evs, rcMild ev := by
  refine ⟨[.start (.connect 3 [0] false false) c90up] ++ c90times 3 (.run 0) ++
    [.act (.close 3)] ++ c90times 4 .main ++ [.run 0], c90is, ?_, ?_⟩
  · have : (RcSys.run c90start ([.start (.connect 3 [0] false false) c90up] ++
      c90times 3 (.run 0) ++ [.act (.close 3)] ++ c90times 4 .main ++ [.run 0])).isNone = true := by
      decide +kernel
    exact Option.isNone_iff_eq_none.mp this
  · intro ev hev
    simp only [c90times, List.cons_append, List.nil_append, List.append_assoc,
      List.mem_cons, List.mem_append, List.mem_replicate, List.not_mem_nil, or_false] at hev
    rcases hev with rfl | ⟨_, rfl⟩ | rfl | ⟨_, rfl⟩ | rfl <;> first | rfl | trivial

/-- **C90 (negation: a dangling writer).**  The same at another time: now the
    console refers to a client that is gone. -/
theorem C90_hangup_dangles : ∃ evs s, RcSys.run c90start evs = some s ∧ ¬ rcTidy s.σ := by
  have e : ∃ s, RcSys.run c90start ([.start (.connect 3 [0] false false) c90up] ++
      c90times 10 (.run 0) ++ [.act (.close 3)] ++ c90times 9 .main ++ [.run 0]) = some s ∧
      (3 ∈ (s.σ 0).wr ∧ (s.σ 3).live = false) := by
    refine ⟨_, rfl, ?_⟩
    decide +kernel
  obtain ⟨s, e, a, b⟩ := e
  refine ⟨_, s, e, fun t => ?_⟩
  rw [(t 0).2 3 a] at b; cases b

/-- **C90 (negation: refusing).**  A client asks for a console in use, which is
    refused with the names of those who use it; one of them may be gone by then. -/
theorem C90_refusal_crashes : ∃ evs, RcSys.run c90start evs = none ∧ ∀ ev ∈ evs, rcMild ev := by
  refine ⟨[.start (.connect 3 [0] false false) c90up] ++ c90times 30 (.run 0) ++
    [.start (.connect 4 [0] false false) c90up] ++ c90times 3 (.run 1) ++
    [.act (.close 3)] ++ c90times 30 .main ++ [.run 1], ?_, ?_⟩
  · have : (RcSys.run c90start ([.start (.connect 3 [0] false false) c90up] ++
      c90times 30 (.run 0) ++ [.start (.connect 4 [0] false false) c90up] ++ c90times 3 (.run 1) ++
      [.act (.close 3)] ++ c90times 30 .main ++ [.run 1])).isNone = true := by
      decide +kernel
    exact Option.isNone_iff_eq_none.mp this
  · intro ev hev
    simp only [c90times, List.cons_append, List.nil_append, List.append_assoc,
      List.mem_cons, List.mem_append, List.mem_replicate, List.not_mem_nil, or_false] at hev
    rcases hev with rfl | ⟨_, rfl⟩ | rfl | ⟨_, rfl⟩ | rfl | ⟨_, rfl⟩ | rfl <;>
      first | rfl | trivial

/-- **C90 (negation: forced requests).**  A client loses its console to a forced
    request and hangs up at the same time. -/
theorem C90_forced_crashes : ∃ evs, RcSys.run c90start evs = none := by
  refine ⟨[.start (.connect 3 [0] false false) c90up] ++ c90times 30 (.run 0) ++
    [.start (.connect 4 [0] true false) c90up] ++ c90times 15 (.run 1) ++
    [.act (.close 3)] ++ c90times 30 .main ++ c90times 9 (.run 1), ?_⟩
  have : (RcSys.run c90start ([.start (.connect 3 [0] false false) c90up] ++
      c90times 30 (.run 0) ++ [.start (.connect 4 [0] true false) c90up] ++ c90times 15 (.run 1) ++
      [.act (.close 3)] ++ c90times 30 .main ++ c90times 9 (.run 1))).isNone = true := by
    decide +kernel
  exact Option.isNone_iff_eq_none.mp this

/-- A broadcast request is served together with a forced one, for one of its
    consoles; nobody hangs up meanwhile. -/
def c90mixed : List RcEv :=
  [.start (.connect 3 [0, 1] false true) c90up] ++ c90times 15 (.run 0) ++
  [.start (.connect 4 [0] true false) c90up] ++ c90times 40 (.run 1) ++ c90times 3 (.run 0)

/-- **C90 (negation: forced and broadcast).**  A forced request that is served
    together with a broadcast request leaves a connection of which only one end
    knows.  When all is done and the client of the broadcast leaves, its console
    refers to memory that was given back, and the next notice uses it. -/
theorem C90_mixed_crashes : ∃ s, RcSys.run c90start c90mixed = some s ∧
    s.main = [] ∧ s.serving = [] ∧ ¬ rcSym s.σ ∧
    RcSys.run s ([.act (.close 3)] ++ c90times 4 .main ++ [.act (.notice 1)] ++
      c90times 4 .main) = none := by
  have e : ∃ s, RcSys.run c90start c90mixed = some s ∧ s.main.isEmpty = true ∧
      s.serving = [] ∧ (3 ∈ (s.σ 1).wr ∧ 1 ∉ (s.σ 3).rd) ∧
      (RcSys.run s ([.act (.close 3)] ++ c90times 4 .main ++ [.act (.notice 1)] ++
        c90times 4 .main)).isNone = true := by
    refine ⟨_, rfl, ?_⟩
    decide +kernel
  obtain ⟨s, e1, e2, e3, ⟨e4, e5⟩, e6⟩ := e
  exact ⟨s, e1, List.isEmpty_iff.mp e2, e3, fun t => e5 ((t 3 1).mpr e4),
    Option.isNone_iff_eq_none.mp e6⟩

/-- Two clients ask for the same console at the same time. -/
def c90race : List RcEv :=
  [.start (.connect 3 [0] false false) c90up, .start (.connect 4 [0] false false) c90up,
    .run 0, .run 1] ++ c90times 40 (.run 0) ++ c90times 50 (.run 1)

/-- **C90 (negation: one writer).**  Whether a console is in use is looked up before
    the session is set up.  Two clients that ask for it at the same time, neither to
    join nor by force, both get it. -/
theorem C90_both_connect : ∃ s, RcSys.run c90start c90race = some s ∧
    RcSys.calm c90start c90race ∧ s.main = [] ∧ s.serving = [] ∧
    rcLinked s.σ 3 0 ∧ rcLinked s.σ 4 0 := by
  have e : ∃ s, RcSys.run c90start c90race = some s ∧ s.main.isEmpty = true ∧
      s.serving = [] ∧ (0 ∈ (s.σ 3).rd ∧ 3 ∈ (s.σ 0).wr) ∧ 0 ∈ (s.σ 4).rd ∧ 4 ∈ (s.σ 0).wr := by
    refine ⟨_, rfl, ?_⟩
    decide +kernel
  obtain ⟨s, e1, e2, e3, e4, e5⟩ := e
  exact ⟨s, e1, calmly_calm (by decide +kernel), List.isEmpty_iff.mp e2, e3, e4, e5⟩

end Conman
