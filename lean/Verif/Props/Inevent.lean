import Verif.Lemma.Inevent

/-
C59: file watches.
-/
namespace Conman

open Spec

/-- After any history: a path is registered at most once; there is a watch only for directories that a registered path needs, and one for a directory at most;
every registered path has the watch of its directory, or the directory was removed and the notice is about to be read. -/
theorem C59_watches (d0 : List UInt8 → Option Nat) (h : List WEv) (l : List Inevent) (k : Inot) (hs : (Watcher.run { dirs := d0 } h).st = some (l, k)) :
    (l.map Inevent.path).Nodup ∧ (k.watches.map Prod.snd).Nodup ∧ (∀ w ∈ k.watches, ∃ e ∈ l, e.wd = w.1) ∧
    (∀ e ∈ l, (∃ ino, (e.wd, ino) ∈ k.watches) ∨ .ignored e.wd ∈ k.queue) := by
  have i := (WatchOk.fresh d0).run h l k hs
  refine ⟨?_, ?_, i.needed, i.live⟩
  · rw [List.Nodup, List.pairwise_map]; exact i.paths
  · rw [List.Nodup, List.pairwise_map]; exact i.one.imp fun h => h.2

/-- A callback that was called had been registered with the path, the path had not been unregistered, and a file of that name had been created in the directory
that the path had named when it was registered. -/
theorem C59_only (d0 : List UInt8 → Option Nat) (h : List WEv) (p : List UInt8) (cb : Nat) (hc : (p, cb) ∈ (Watcher.run { dirs := d0 } h).log) :
    ∃ a b c n ok d f ino, h = a ++ WEv.add p cb ok :: b ++ WEv.process n :: c ∧ WEv.remove p ∉ b ∧ Parent p d f ∧ dirsAfter d0 a d = some ino ∧
      WEv.created ino f ∈ a ++ WEv.add p cb ok :: b := by
  obtain ⟨h1, h2, n, f, ino, e1, ⟨a, b, ok, d, e2, e3, e4, e5⟩, e6⟩ := (WHist.all d0 h).log _ hc
  exact ⟨a, b, h2, n, ok, d, f, ino, by rw [← e2]; exact e1, e3, e4, e5, by rw [← e2]; exact e6⟩

/-- For no path is a callback called more often than files of its name are created. -/
theorem C59_count (d0 : List UInt8 → Option Nat) (h : List WEv) (p d f : List UInt8) (hp : Parent p d f) :
    (Watcher.run { dirs := d0 } h).log.countP (fun c => c.1 = p) ≤ h.countP (isCreation f) := by
  have := count_run (d0 := d0) hp h (WatchOk.fresh d0) (WHist.init d0)
  have e : (Watcher.waiting { dirs := d0 } f) = 0 := rfl
  have e' : (({ dirs := d0 } : Watcher).log).countP (fun c => c.1 = p) = 0 := rfl
  omega

/-- Which registrations succeed. -/
theorem C59_add (w : Watcher) (p d f : List UInt8) (cb : Nat) (ok : Bool) (hp : Parent p d f) (ha : p.head? = some 0x2F) :
    (w.add p cb ok).2 = true ↔ (w.st = none → ok = true) ∧ (∀ l k, w.st = some (l, k) → ∀ e ∈ l, e.path ≠ p) ∧ (w.dirs d).isSome := by
  have hsp := parent_split hp
  unfold Watcher.add Watcher.opened
  rw [if_neg (show ¬ p.head? ≠ some 0x2F from fun g => g ha), hsp]
  cases hs : w.st with
  | none =>
    cases ok with
    | false => simp
    | true => cases w.dirs d <;> simp
  | some s =>
    obtain ⟨l, k⟩ := s
    dsimp only
    by_cases hany : l.any (fun e => e.path = p)
    · rw [if_pos hany]
      obtain ⟨e, he, g⟩ := List.any_eq_true.1 hany
      simp only [decide_eq_true_eq] at g
      constructor
      · intro g; cases g
      · intro ⟨_, g2, _⟩; exact absurd g (g2 l k rfl e he)
    · rw [if_neg hany]
      have : ∀ e ∈ l, e.path ≠ p := fun e he g => hany (List.any_eq_true.2 ⟨e, he, by simpa using g⟩)
      cases hd : w.dirs d with
      | none => simp
      | some i =>
        refine ⟨fun _ => ⟨(fun g => by cases g), ?_, rfl⟩, fun _ => rfl⟩
        intro l' k' g; cases g; exact this

/-- A file created in a directory after a path that names it was registered makes the callback of this path be called when the events are processed, unless the path
was unregistered or the directory removed.  This is for paths that are not registered in another spelling. -/
theorem C59_called (d0 : List UInt8 → Option Nat) (h0 h1 h2 : List WEv) (p d f : List UInt8) (cb ino n : Nat) (ok : Bool) (hp : Parent p d f)
    (hd : dirsAfter d0 h0 d = some ino) (hadd : ((Watcher.run { dirs := d0 } h0).add p cb ok).2 = true)
    (hr : WEv.remove p ∉ h1 ++ h2) (hg : WEv.gone ino ∉ h1 ++ h2)
    (hu : ∀ a b q cb' ok' dq, h0 ++ WEv.add p cb ok :: h1 ++ WEv.created ino f :: h2 = a ++ WEv.add q cb' ok' :: b → Parent q dq f → dirsAfter d0 a dq = some ino → q = p)
    (hn : (h0 ++ WEv.add p cb ok :: h1 ++ WEv.created ino f :: h2).length ≤ n) :
    ∃ s, (Watcher.run { dirs := d0 } (h0 ++ WEv.add p cb ok :: h1 ++ WEv.created ino f :: h2 ++ [.process n])).log =
      (Watcher.run { dirs := d0 } (h0 ++ WEv.add p cb ok :: h1 ++ [.created ino f])).log ++ s ∧ (p, cb) ∈ s := by
  rw [List.mem_append, not_or] at hr hg
  have happ : ∀ (w : Watcher) (a b : List WEv), w.run (a ++ b) = (w.run a).run b := fun w a b => List.foldl_append
  have ok0 := (WatchOk.fresh d0).run h0
  -- registered and watched
  have l1 : WLive p f cb ino (Watcher.run { dirs := d0 } (h0 ++ [WEv.add p cb ok])) := by
    rw [happ]
    show WLive p f cb ino ((Watcher.run { dirs := d0 } h0).add p cb ok).1
    rcases add_cases (Watcher.run { dirs := d0 } h0) p cb ok with g | ⟨l0, k0, ho, g⟩ | ⟨l0, k0, ino', ho, _, _, hi, g⟩
    · rw [g] at hadd; cases hadd
    · rw [g] at hadd; cases hadd
    · rw [g]
      rw [parent_split hp, (WHist.all d0 h0).dirs, hd] at hi
      cases hi
      exact ⟨_, _, _, rfl, List.mem_append_right _ List.mem_cons_self, rfl, by rw [parent_split hp], rfl, (Inot.add_spec (ok0.opened ho).issued).1⟩
  have ok1 := (WatchOk.fresh d0).run (h0 ++ [WEv.add p cb ok])
  have l2 := l1.run ok1 h1 hr.1 hg.1
  rw [← happ] at l2
  have e1 : h0 ++ [WEv.add p cb ok] ++ h1 = h0 ++ WEv.add p cb ok :: h1 := by simp
  rw [e1] at l2
  have ok2 := (WatchOk.fresh d0).run (h0 ++ WEv.add p cb ok :: h1)
  have e2 : ∀ r, h0 ++ WEv.add p cb ok :: h1 ++ WEv.created ino f :: r = h0 ++ WEv.add p cb ok :: h1 ++ [WEv.created ino f] ++ r := by simp
  have l3 := l2.step ok2 (x := .created ino f) (fun g => by cases g) (fun g => by cases g)
  obtain ⟨w2, hw2⟩ : ∃ w2, Watcher.run { dirs := d0 } (h0 ++ WEv.add p cb ok :: h1) = w2 := ⟨_, rfl⟩
  have hw3 : Watcher.run { dirs := d0 } (h0 ++ WEv.add p cb ok :: h1 ++ [.created ino f]) = w2.step (.created ino f) := by rw [happ, hw2]; rfl
  rw [hw2] at l2 l3 ok2
  have ok3 := ok2.step (.created ino f)
  have hist3 := WHist.all d0 (h0 ++ WEv.add p cb ok :: h1 ++ [.created ino f])
  rw [hw3] at hist3
  have p3 : WPend p f cb (w2.step (.created ino f)).log.length (w2.step (.created ino f)) := by
    obtain ⟨l, k, e, s1, s2, s3, s4, s5, s6⟩ := l2
    have i2 := ok2 l k s1
    refine Or.inr ⟨l, k.onCreate ino f, e, by rw [Watcher.step, s1]; rfl, s2, s3, ?_⟩
    unfold Inot.onCreate
    cases hf : k.watches.find? (fun x => x.2 = ino) with
    | none =>
      have := List.find?_eq_none.1 hf _ s6
      simp at this
    | some x =>
      have hx := List.find?_some hf
      simp only [decide_eq_true_eq] at hx
      have hm := List.mem_of_find?_eq_some hf
      have : x = (e.wd, ino) := by
        rcases Decidable.em (x = (e.wd, ino)) with g | g
        · exact g
        · exfalso
          have : ∀ ws : List (Nat × Nat), ws.Pairwise (fun a b => a.1 ≠ b.1 ∧ a.2 ≠ b.2) → ∀ a ∈ ws, ∀ b ∈ ws, a.2 = b.2 → a = b := by
            intro ws
            induction ws with
            | nil => intro _ a ha; cases ha
            | cons y ws ih =>
              intro hp a ha b hb e
              rw [List.pairwise_cons] at hp
              rcases List.mem_cons.1 ha with rfl | ha' <;> rcases List.mem_cons.1 hb with rfl | hb'
              · rfl
              · exact absurd e (hp.1 b hb').2
              · exact absurd e.symm (hp.1 a ha').2
              · exact ih hp.2 a ha' b hb' e
          exact g (this _ i2.one x hm _ s6 hx)
      rw [this]
      exact Inot.post_mem.2 (Or.inr rfl)
  have hu2 := hu
  rw [e2] at hu2
  have hu3 : ∀ r : List WEv, (∀ q cb' ok', WEv.add q cb' ok' ∉ r) → ∀ a b q cb' ok' dq, h0 ++ WEv.add p cb ok :: h1 ++ [WEv.created ino f] ++ (h2 ++ r) = a ++ WEv.add q cb' ok' :: b →
      Parent q dq f → dirsAfter d0 a dq = some ino → q = p := by
    intro r hr a b q cb' ok' dq e
    rw [← List.append_assoc, List.append_eq_append_iff] at e
    rcases e with ⟨t, g1, g2⟩ | ⟨t, g1, g2⟩
    · exact absurd (g2 ▸ List.mem_append_right _ List.mem_cons_self) (hr q cb' ok')
    · cases t with
      | nil =>
        rw [List.nil_append] at g2
        exact absurd (g2 ▸ List.mem_cons_self) (hr q cb' ok')
      | cons y t =>
        injection g2 with g2 g3
        subst g2
        exact hu2 a t q cb' ok' dq g1
  have p4 := p3.run ok3 hist3 l3 (Nat.le_refl _) h2 hr.2 hg.2 (by have := hu3 [] (fun _ _ _ h => by cases h); rw [List.append_nil] at this; exact this)
  have p5 := p3.run ok3 hist3 l3 (Nat.le_refl _) (h2 ++ [.process n])
    (by rw [List.mem_append, not_or]; exact ⟨hr.2, fun g => by cases List.mem_singleton.1 g⟩)
    (by rw [List.mem_append, not_or]; exact ⟨hg.2, fun g => by cases List.mem_singleton.1 g⟩)
    (hu3 _ (fun _ _ _ h => by cases List.mem_singleton.1 h))
  have hrun : Watcher.run { dirs := d0 } (h0 ++ WEv.add p cb ok :: h1 ++ WEv.created ino f :: h2 ++ [.process n]) = (w2.step (.created ino f)).run (h2 ++ [.process n]) := by
    rw [e2, List.append_assoc, happ, hw3]
  rw [hrun, hw3]
  obtain ⟨s, hs⟩ := run_log (w2.step (.created ino f)) (h2 ++ [.process n])
  refine ⟨s, hs.symm, ?_⟩
  rcases p5 with g | ⟨l, k, e, s1, s2, s3, s4⟩
  · rw [← hs, List.drop_left] at g
    exact g
  · -- nothing is left in the queue
    exfalso
    have hq := (WHist.all d0 (h0 ++ WEv.add p cb ok :: h1 ++ WEv.created ino f :: h2)).size
    rw [e2, happ, hw3] at hq
    rw [happ] at s1
    generalize (w2.step (.created ino f)).run h2 = w4 at s1 hq
    have s1' : (w4.process n).st = some (l, k) := s1
    unfold Watcher.process at s1'
    cases hs4 : w4.st with
    | none => rw [hs4] at s1'; dsimp only at s1'; rw [hs4] at s1'; cases s1'
    | some x =>
      obtain ⟨l4, k4⟩ := x
      rw [hs4] at s1'
      cases s1'
      have := hq l4 k4 hs4
      rw [← e2] at this
      dsimp only at s4
      rw [List.drop_of_length_le (Nat.le_trans this hn)] at s4
      cases s4

/-- A path that does not begin with a slash is not registered. -/
theorem C59_relative (w : Watcher) (p : List UInt8) (cb : Nat) (ok : Bool) (h : p.head? ≠ some 0x2F) : w.add p cb ok = (w, false) := by
  unfold Watcher.add
  rw [if_pos h]

/-! ### Cases -/

/-- `/d` and `/d/` are directory 7, `/e` is directory 8. -/
def demoDirs : List UInt8 → Option Nat := fun d => if d = bs "/d" ∨ d = bs "/d/" then some 7 else if d = bs "/e" then some 8 else none

def demoWatch (h : List WEv) : Watcher := Watcher.run { dirs := demoDirs } h

example : Parent (bs "/d/x") (bs "/d") (bs "x") := Parent.sub (bs "/d") (bs "x") (by decide) (by decide)

example : Parent (bs "/x") (bs "/") (bs "x") := Parent.root (bs "x") (by decide)

/-- Two paths in the same directory and one in another; one of the first is unregistered, and the watch stays for the other. -/
example : (demoWatch [.add (bs "/d/x") 1 true, .add (bs "/d/y") 2 true, .add (bs "/e/x") 3 true, .remove (bs "/d/x"), .created 7 (bs "x"), .created 7 (bs "y"), .created 8 (bs "x"),
    .process 9]).log = [(bs "/d/y", 2), (bs "/e/x", 3)] := by decide +kernel

example : (demoWatch [.add (bs "/d/x") 1 true, .add (bs "/d/y") 2 true, .add (bs "/e/x") 3 true, .remove (bs "/d/x")]).st.map (fun s => s.2.watches) = some [(0, 7), (1, 8)] := by decide +kernel

/-- Hypotheses of `C59_called`. -/
example : ∃ s, (Watcher.run { dirs := demoDirs } ([.add (bs "/e/y") 2 true] ++ WEv.add (bs "/d/x") 1 true :: [.remove (bs "/e/y")] ++ WEv.created 7 (bs "x") :: [.created 8 (bs "y")] ++ [.process 20])).log =
    (Watcher.run { dirs := demoDirs } ([.add (bs "/e/y") 2 true] ++ WEv.add (bs "/d/x") 1 true :: [.remove (bs "/e/y")] ++ [.created 7 (bs "x")])).log ++ s ∧ (bs "/d/x", 1) ∈ s := by
  refine C59_called demoDirs _ _ _ _ (bs "/d") (bs "x") 1 7 20 true (Parent.sub (bs "/d") (bs "x") (by decide) (by decide)) (by decide) (by decide +kernel) ?_ ?_ ?_ (by decide)
  · intro h
    simp only [List.mem_append, List.mem_singleton] at h
    rcases h with h | h
    · injection h with h
      exact absurd h (by decide)
    · cases h
  · intro h
    simp only [List.mem_append, List.mem_singleton] at h
    rcases h with h | h <;> cases h
  · intro a b q cb' ok' dq e hp _
    have hm : WEv.add q cb' ok' ∈ a ++ WEv.add q cb' ok' :: b := List.mem_append_right _ List.mem_cons_self
    rw [← e] at hm
    simp only [List.mem_append, List.mem_cons, List.not_mem_nil, or_false, false_or] at hm
    rcases hm with (hm | hm | hm) | hm | hm
    · injection hm with h1
      subst h1
      have h2 := (Prod.mk.inj (parent_split hp)).2
      exact absurd h2 (by decide +kernel)
    · injection hm
    · cases hm
    · cases hm
    · cases hm

/-- Finding: a path that is registered in two spellings (`/d/x` and `/d//x`) is registered twice, but only the first callback is ever called; an event is given to the
first entry that matches (src/inevent.c:333-338). -/
theorem C59_two_spellings :
    ((demoWatch [.add (bs "/d/x") 1 true]).add (bs "/d//x") 2 true).2 = true ∧
    (demoWatch [.add (bs "/d/x") 1 true, .add (bs "/d//x") 2 true, .created 7 (bs "x"), .process 9]).log = [(bs "/d/x", 1)] := by decide +kernel

/-- Finding: when the directory of a path is removed, the path is forgotten without notice: when the directory and the file are created again, the callback is not called
(src/inevent.c:322-327). -/
theorem C59_recreated :
    (demoWatch [.add (bs "/d/x") 1 true, .gone 7, .dirs (fun d => if d = bs "/d" then some 9 else none), .process 9, .created 9 (bs "x"), .process 9]).log = [] ∧
    (demoWatch [.add (bs "/d/x") 1 true, .gone 7, .dirs (fun d => if d = bs "/d" then some 9 else none), .process 9, .created 9 (bs "x"), .process 9]).st.map (fun s => s.1) = some [] := by
  decide +kernel

end Conman
