import Verif.Lemma.Mutexes

/-
  C89: the threads of the daemon never block each other for ever.
-/

namespace Conman

open Spec Mx

/-! A daemon with a client and a thread of the IPMI engine, for the examples.
    The main thread polls, accepts the client, polls again and runs the timer of
    a telnet console; the client asks for a session with one console. -/

/-- The sequence of the main thread. -/
def c89main : List LAct :=
  (guide mainThread (List.replicate 12 0 ++
    [2, 0, 0, 0, 0, 1, 1, 1, 0, 0, 0, 0, 0, 1, 1, 0, 3, 0, 0])).1
/-- The sequence of the client. -/
def c89client : List LAct :=
  (guide processClient [5, 6, 7, 1, 1, 1, 0, 0, 0, 1, 0, 1, 0, 0, 1, 1, 1, 1, 0, 1, 0,
    1, 1, 0, 0, 1, 0, 0, 0, 1, 0, 1, 1]).1
/-- The sequence of the engine: one callback for the console of number 4. -/
def c89engine : List LAct := (guide engineThread [1, 4, 1, 1, 0, 0, 1]).1
/-- The threads at the start. -/
def c89start : List Th := [c89main, c89client, c89engine].map fresh

theorem c89daemon : Daemon c89start :=
  ⟨c89main, [c89client], [c89engine], guide_run _ _,
    by intro c h; rw [List.mem_singleton.mp h]; exact guide_run _ _,
    by intro c h; rw [List.mem_singleton.mp h]; exact guide_run _ _, rfl⟩

/-- **C89 (progress).**  At any time, whatever the threads did so far: if no
    thread of the daemon can take a step of its own, then every thread has
    finished, or waits for something outside the daemon and not for a mutex, or
    waits for the mutex of the resolver while another thread awaits an answer of
    the name service. -/
theorem C89_progress {s0 s} (d : Daemon s0) (r : Threads s0 s) (st : stuck s) :
    ∀ t ∈ s, finished t ∨ awaits t .peer ∨ awaits t .lookup ∨
      (wants t .hostent ∧ ∃ u ∈ s, awaits u .lookup) := by
  intro t ht
  have i := d.inv.threads r
  obtain ⟨todo, held⟩ := t
  cases todo with
  | nil => exact .inl rfl
  | cons x rest =>
    cases x with
    | acq m =>
      obtain ⟨rfl, u, hu, a, _⟩ := i.stuck st 7 m (by omega) _ ht ⟨rest, rfl⟩
      exact .inr (.inr (.inr ⟨⟨rest, rfl⟩, u, hu, a⟩))
    | rel m =>
      obtain ⟨h', dd, _⟩ := lkRun_cons (i.ok _ ht)
      obtain ⟨a, b, rfl⟩ := List.append_of_mem ht
      exact absurd (.rel (lkDo_rel dd).2) (st _)
    | use m =>
      obtain ⟨a, b, rfl⟩ := List.append_of_mem ht
      exact absurd .use (st _)
    | raw m =>
      obtain ⟨a, b, rfl⟩ := List.append_of_mem ht
      exact absurd .raw (st _)
    | wait e =>
      cases e with
      | peer => exact .inr (.inl ⟨rest, rfl⟩)
      | lookup => exact .inr (.inr (.inl ⟨rest, rfl⟩))

/-- A daemon that has come to such a point: the main thread waits for I/O and
    the engine for the network, while the client's address is looked up. -/
example : ∃ s, Threads c89start s ∧ stuck s ∧ s.length = 3 := by
  have e : ∃ s, execMany c89start (List.replicate 28 0 ++ List.replicate 4 1) = some s ∧
      s.map (fun t => t.todo.head?) =
        [some (.wait .peer), some (.wait .lookup), some (.wait .peer)] := by
    refine ⟨_, rfl, ?_⟩
    decide +kernel
  obtain ⟨s, h, e⟩ := e
  have l : s.length = 3 := by have := congrArg List.length e; simpa using this
  refine ⟨s, execMany_threads h, ?_, l⟩
  match s, l with
  | [a, b, c], _ =>
    simp only [List.map_cons, List.map_nil, List.cons.injEq, and_true] at e
    obtain ⟨ea, eb, ec⟩ := e
    intro s' r
    have key : ∀ (x y : List Th) (t : Th), [a, b, c] = x ++ t :: y →
        ∃ w, t.todo.head? = some (.wait w) := by
      intro x y t hh
      have : t ∈ [a, b, c] := by rw [hh]; simp
      simp only [List.mem_cons, List.not_mem_nil, or_false] at this
      rcases this with rfl | rfl | rfl
      · exact ⟨_, ea⟩
      · exact ⟨_, eb⟩
      · exact ⟨_, ec⟩
    generalize hs : [a, b, c] = z at r key
    cases r <;> (obtain ⟨w, hw⟩ := key _ _ _ rfl; simp at hw)

/-- **C89 (no waiting with a mutex).**  A thread that waits for a client, a
    console, a timer or the IPMI engine holds no mutex, so that nobody outside
    can stop other threads by keeping silent.  A thread that awaits the name
    service holds the mutex of the resolver and no other. -/
theorem C89_wait_free {s0 s} (d : Daemon s0) (r : Threads s0 s) {t} (ht : t ∈ s) :
    (awaits t .peer → t.held = []) ∧ (awaits t .lookup → t.held = [.hostent]) := by
  have i := (d.inv.threads r).ok t ht
  obtain ⟨todo, held⟩ := t
  refine ⟨?_, ?_⟩ <;> rintro ⟨rest, e⟩ <;> dsimp only at e <;> subst e <;>
    obtain ⟨h', dd, _⟩ := lkRun_cons i
  · exact (lkDo_peer dd).2
  · exact (lkDo_lookup dd).2

/-- A client in the middle of its greeting. -/
example : ∃ s, Threads c89start s ∧ ∃ t ∈ s, awaits t .peer ∧ t.todo.length > 100 := by
  have e : ∃ s, execMany c89start (List.replicate 7 1) = some s ∧
      ∃ t ∈ s, t.todo.head? = some (.wait .peer) ∧ t.todo.length > 100 := by
    refine ⟨_, rfl, ?_⟩
    decide +kernel
  obtain ⟨s, h, t, ht, e, l⟩ := e
  refine ⟨s, execMany_threads h, t, ht, ?_, l⟩
  cases hh : t.todo with
  | nil => rw [hh] at e; cases e
  | cons x r => rw [hh] at e; injection e with e; subst e; exact ⟨r, hh⟩

/-- **C89 (everything is given back).**  A thread that has finished holds no
    mutex. -/
theorem C89_released {s0 s} (d : Daemon s0) (r : Threads s0 s) {t} (ht : t ∈ s)
    (f : finished t) : t.held = [] := by
  have i := (d.inv.threads r).ok t ht
  obtain ⟨todo, held⟩ := t
  cases f
  injection i

/-- The engine has finished. -/
example : ∃ s, Threads c89start s ∧ ∃ t ∈ s, finished t := by
  have e : ∃ s, execMany c89start (List.replicate c89engine.length 2) = some s ∧
      ∃ t ∈ s, t.todo = [] := by
    refine ⟨_, rfl, ?_⟩
    decide +kernel
  obtain ⟨s, h, t, ht, e⟩ := e
  exact ⟨s, execMany_threads h, t, ht, e⟩

/-- **C89 (exclusion).**  No two threads are at the same guarded data at once,
    and no thread is at guarded data while another holds its mutex. -/
theorem C89_exclusive {s0 s} (d : Daemon s0) (r : Threads s0 s) {m : Lk} {i j : Nat} {t u : Th}
    (hi : s[i]? = some t) (hj : s[j]? = some u) (ne : i ≠ j) (a : inside t m) :
    m ∈ t.held ∧ m ∉ u.held ∧ ¬ inside u m := by
  have inv := d.inv.threads r
  have use_held : ∀ v, v ∈ s → inside v m → m ∈ v.held := by
    intro v hv ⟨rest, e⟩
    have ok := inv.ok v hv
    rw [e] at ok
    obtain ⟨h', dd, _⟩ := lkRun_cons ok
    exact (lkDo_use dd).2
  have mt := use_held t (List.mem_of_getElem? hi) a
  have nu : m ∉ u.held := by
    intro mu
    have o := inv.once
    obtain ⟨li, ei⟩ := List.getElem?_eq_some_iff.mp hi
    obtain ⟨lj, ej⟩ := List.getElem?_eq_some_iff.mp hj
    have p := (List.pairwise_flatMap.mp o).2
    rw [List.pairwise_iff_getElem] at p
    rcases Nat.lt_or_gt_of_ne ne with l | l
    · have := p i j li lj l m (by rw [ei]; exact mt) m (by rw [ej]; exact mu)
      exact this rfl
    · have := p j i lj li l m (by rw [ej]; exact mu) m (by rw [ei]; exact mt)
      exact this rfl
  exact ⟨mt, nu, fun b => nu (use_held u (List.mem_of_getElem? hj) b)⟩

/-- The client in the table of descriptors. -/
example : ∃ s, Threads c89start s ∧ ∃ t, s[1]? = some t ∧ inside t .tpoll := by
  have e : ∃ s, execMany c89start (List.replicate 92 1) = some s ∧
      (s[1]?.bind fun t => t.todo.head?) = some (.use .tpoll) := by
    refine ⟨_, rfl, ?_⟩
    decide +kernel
  obtain ⟨s, h, e⟩ := e
  refine ⟨s, execMany_threads h, ?_⟩
  cases g : s[1]? with
  | none => rw [g] at e; cases e
  | some t =>
    rw [g] at e
    refine ⟨t, rfl, ?_⟩
    cases hh : t.todo with
    | nil => simp [hh] at e
    | cons x r => simp [hh] at e; subst e; exact ⟨r, hh⟩

/-- **C89 (soon).**  From any time on, in any order of the threads, only so many
    steps can be taken before the threads need something from outside: as many
    as all of them have left, and then nobody wants a mutex but that of the
    resolver.  A thread that wants another mutex has got it by then. -/
theorem C89_served {s0 s s' : List Th} {n i : Nat} {t : Th} {m : Lk} (d : Daemon s0) (r : Threads s0 s)
    (q : Inners n s s') (st : stuck s') (hi : s[i]? = some t) (w : wants t m)
    (ne : m ≠ .hostent) :
    n ≤ (s.map fun t => t.todo.length).sum ∧
    ∃ t' : Th, s'[i]? = some t' ∧ t'.todo.length < t.todo.length ∧
      ∀ x ∈ t'.held, x = .hostent := by
  have inv := d.inv.threads (Inners.threads r q)
  have ls := Inners.less q
  obtain ⟨t', h', sf⟩ := Inners.suffix q hi
  have ht' := List.mem_of_getElem? h'
  refine ⟨by unfold lkLeft at ls; omega, t', h', ?_, ?_⟩
  · rcases Nat.lt_or_ge t'.todo.length t.todo.length with l | l
    · exact l
    · have e := sf.eq_of_length_le l
      obtain ⟨rest, et⟩ := w
      have := inv.stuck st 7 m (by omega) t' ht' ⟨rest, by rw [e, et]⟩
      exact absurd this.1 ne
  · have ok := inv.ok t' ht'
    rcases C89_progress d (Inners.threads r q) st t' ht' with f | ⟨rest, e⟩ | ⟨rest, e⟩ | ⟨⟨rest, e⟩, _⟩
    · rw [finished] at f
      rw [f] at ok
      injection ok with ok
      rw [ok]; intro x hx; cases hx
    all_goals
      rw [e] at ok
      obtain ⟨h2, dd, _⟩ := lkRun_cons ok
    · rw [(lkDo_peer dd).2]; intro x hx; cases hx
    · rw [(lkDo_lookup dd).2]; intro x hx; exact List.mem_singleton.mp hx
    · rw [(lkDo_acq dd).2.2 rfl]; intro x hx; cases hx

/-- **C89 (soon, there is such a time).**  From any time on, the threads can go
    on to a point where they need something from outside. -/
theorem C89_settles {s0 s} (_ : Daemon s0) (_ : Threads s0 s) :
    ∃ n s', Inners n s s' ∧ stuck s' := exists_stuck s

/-- A client that wants a mutex that the main thread holds. -/
example : ∃ s, Threads c89start s ∧ ∃ t u, s[1]? = some t ∧ s[0]? = some u ∧
    wants t .freeLists ∧ .freeLists ∈ u.held := by
  have e : ∃ s, execMany c89start [0] = some s ∧
      s[1]? = some (fresh c89client) ∧ (s[0]?.map Th.held) = some [.freeLists] := by
    refine ⟨_, rfl, ?_, ?_⟩ <;> decide +kernel
  obtain ⟨s, h, e1, e0⟩ := e
  cases g : s[0]? with
  | none => rw [g] at e0; cases e0
  | some u =>
    rw [g] at e0
    injection e0 with e0
    refine ⟨s, execMany_threads h, _, u, e1, g, ⟨c89client.tail, ?_⟩, by rw [e0]; decide⟩
    decide +kernel

/-- **C89 (finding).**  A slow name service stops the whole daemon: the thread
    of a client awaits the name of the client's address with the mutex of the
    resolver, and the main thread, about to connect a telnet console, waits for
    that mutex. -/
theorem C89_lookup_stalls : ∃ s0 s m c e, Daemon s0 ∧ Threads s0 s ∧ s = [m, c, e] ∧
    m.todo.length > 20 ∧ wants m .hostent ∧ awaits c .lookup ∧ .hostent ∈ c.held := by
  have e : ∃ s, execMany c89start (List.replicate 41 0 ++ List.replicate 4 1) = some s ∧
      s.map (fun t => (t.todo.head?, t.held)) =
        [(some (.acq .hostent), []), (some (.wait .lookup), [.hostent]),
         (some (.wait .peer), [])] ∧ (s[0]?.map fun t => t.todo.length) = some 21 := by
    refine ⟨_, rfl, ?_, ?_⟩ <;> decide +kernel
  obtain ⟨s, h, e, l0⟩ := e
  have l : s.length = 3 := by have := congrArg List.length e; simpa using this
  match s, l with
  | [a, b, c], _ =>
    simp only [List.map_cons, List.map_nil, List.cons.injEq, and_true, Prod.mk.injEq] at e
    obtain ⟨⟨ea, _⟩, ⟨eb, hb⟩, _⟩ := e
    refine ⟨c89start, _, a, b, c, c89daemon, execMany_threads h, rfl, ?_, ?_, ?_, ?_⟩
    · simp at l0; omega
    · cases hh : a.todo with
      | nil => rw [hh] at ea; cases ea
      | cons x r => rw [hh] at ea; injection ea with ea; subst ea; exact ⟨r, hh⟩
    · cases hh : b.todo with
      | nil => rw [hh] at eb; cases eb
      | cons x r => rw [hh] at eb; injection eb with eb; subst eb; exact ⟨r, hh⟩
    · rw [hb]; decide

/-- **C89 (finding).**  The table of descriptors is not always guarded: the main
    thread hands it to poll without the mutex, while the thread of a client may
    change it, and make it larger elsewhere, under the mutex. -/
theorem C89_poll_race : ∃ s0 s m c e, Daemon s0 ∧ Threads s0 s ∧ s = [m, c, e] ∧
    bare m .tpoll ∧ inside c .tpoll := by
  have e : ∃ s, execMany c89start (List.replicate 27 0 ++ List.replicate 92 1) = some s ∧
      s.map (fun t => t.todo.head?) =
        [some (.raw .tpoll), some (.use .tpoll), some (.wait .peer)] := by
    refine ⟨_, rfl, ?_⟩
    decide +kernel
  obtain ⟨s, h, e⟩ := e
  have l : s.length = 3 := by have := congrArg List.length e; simpa using this
  match s, l with
  | [a, b, c], _ =>
    simp only [List.map_cons, List.map_nil, List.cons.injEq, and_true] at e
    obtain ⟨ea, eb, _⟩ := e
    refine ⟨c89start, _, a, b, c, c89daemon, execMany_threads h, rfl, ?_, ?_⟩
    · cases hh : a.todo with
      | nil => rw [hh] at ea; cases ea
      | cons x r => rw [hh] at ea; injection ea with ea; subst ea; exact ⟨r, hh⟩
    · cases hh : b.todo with
      | nil => rw [hh] at eb; cases eb
      | cons x r => rw [hh] at eb; injection eb with eb; subst eb; exact ⟨r, hh⟩

end Conman
