import Verif.Model.Conf

/-
Lemmas on the parser of configuration files: a line is processed independently of what follows it.
-/
namespace Conman

open Spec (Cf.inLine Line BareStamp)

/-- What is known about the rest of a line. -/
structure GoodLine (l : List Cf) : Prop where
  inLine : ∀ t ∈ l, Cf.inLine t
  stamp : ¬ BareStamp l

theorem GoodLine.tail {t : Cf} {l : List Cf} (h : GoodLine (t :: l)) : GoodLine l :=
  ⟨fun x hx => h.inLine x (List.mem_cons_of_mem _ hx), fun ⟨a, k, e, n, h1, h2⟩ => h.stamp ⟨t :: a, k, e, n, by rw [h1]; rfl, h2⟩⟩

/-- The positions of two parsers: `p` reads a line ended by `eol` and followed by `tl`, `q` reads the line alone. -/
inductive Both (eol e : Cf) (tl : List Cf) : Ps → Ps → Prop
  | inside (t : Cf) (l : List Cf) (h : GoodLine (t :: l)) : Both eol e tl ⟨t, l ++ eol :: tl⟩ ⟨t, l⟩
  | atEnd : Both eol e tl ⟨eol, tl⟩ ⟨e, []⟩

/-- `eol` and `e` end the same line. -/
structure Ends (eol e : Cf) : Prop where
  heol : eol.kind = .eol
  heof : e.kind = .eof
  hline : eol.line = e.line

theorem next_inside {eol e eof : Cf} {tl : List Cf} {t : Cf} {l : List Cf} (h : GoodLine (t :: l)) :
    Both eol e tl (Ps.next eof ⟨t, l ++ eol :: tl⟩) (Ps.next e ⟨t, l⟩) := by
  cases l with
  | nil => exact Both.atEnd
  | cons x l => exact Both.inside x l h.tail

/-- Outcomes of a clause for the two parsers. -/
inductive OutBoth (eol e : Cf) (tl : List Cf) : Option Out → Option Out → Prop
  | none : OutBoth eol e tl none none
  | some {o o' : Out} (hc : o.conf = o'.conf) (he : o.err = o'.err) (hp : Both eol e tl o.ps o'.ps) (hi : o.err = false → o'.ps.last.kind ≠ .eof) : OutBoth eol e tl (some o) (some o')

theorem both_kinds {eol e : Cf} {tl : List Cf} {p q : Ps} (h : Both eol e tl p q) :
    (p.last = q.last ∧ Cf.inLine q.last ∧ ∃ l, GoodLine (q.last :: l) ∧ p = ⟨q.last, l ++ eol :: tl⟩ ∧ q = ⟨q.last, l⟩) ∨ (p = ⟨eol, tl⟩ ∧ q = ⟨e, []⟩) := by
  cases h with
  | inside t l hg => exact Or.inl ⟨rfl, hg.inLine t List.mem_cons_self, l, hg, rfl, rfl⟩
  | atEnd => exact Or.inr ⟨rfl, rfl⟩

theorem clause_both {eol e eof : Cf} {tl : List Cf} (hE : Ends eol e) {t : Cf} {l : List Cf} (h : GoodLine (t :: l)) (c : SConf) (f : Cf → Option (SConf × Bool))
    (hf : ∀ x : Cf, x.kind = .eol ∨ x.kind = .eof → f x = some (c, false)) :
    OutBoth eol e tl (clause eof ⟨t, l ++ eol :: tl⟩ c f) (clause e ⟨t, l⟩ c f) := by
  have hb := next_inside (eol := eol) (e := e) (eof := eof) (tl := tl) h
  unfold clause
  rcases both_kinds hb with ⟨h1, h2, l', hg, hp, hq⟩ | ⟨hp, hq⟩
  · rw [hp, hq]
    dsimp only
    generalize (Ps.next e ⟨t, l⟩).last = x at *
    by_cases hx : x.kind = .eq
    · rw [if_neg (by simp [hx]), if_neg (by simp [hx])]
      have hb2 := next_inside (eol := eol) (e := e) (eof := eof) (tl := tl) hg
      rcases both_kinds hb2 with ⟨k1, k2, l2, kg, kp, kq⟩ | ⟨kp, kq⟩
      · rw [kp, kq]
        dsimp only
        generalize (Ps.next e ⟨x, l'⟩).last = y at *
        cases f y with
        | none => exact OutBoth.none
        | some r => exact OutBoth.some rfl rfl (Both.inside y l2 kg) (fun _ => k2.2)
      · rw [kp, kq]
        dsimp only
        rw [hf eol (Or.inl hE.heol), hf e (Or.inr hE.heof)]
        exact OutBoth.some rfl rfl Both.atEnd (by simp)
    · rw [if_pos hx, if_pos hx]
      exact OutBoth.some rfl rfl (Both.inside x l' hg) (by simp)
  · rw [hp, hq]
    dsimp only
    rw [if_pos (by rw [hE.heol]; decide), if_pos (by rw [hE.heof]; decide)]
    exact OutBoth.some rfl rfl Both.atEnd (by simp)

theorem setStamp_both {eol e eof : Cf} {tl : List Cf} (hE : Ends eol e) {t : Cf} {l : List Cf} (h : GoodLine (t :: l)) (ht : t.kind = .key .timestamp) (c : SConf) :
    OutBoth eol e tl (setStamp eof ⟨t, l ++ eol :: tl⟩ c) (setStamp e ⟨t, l⟩ c) := by
  have hb := next_inside (eol := eol) (e := e) (eof := eof) (tl := tl) h
  unfold setStamp
  rcases both_kinds hb with ⟨h1, h2, l', hg, hp, hq⟩ | ⟨hp, hq⟩
  · have hl : l = (Ps.next e ⟨t, l⟩).last :: l' := by
      cases l with
      | nil => exact absurd hE.heof h2.2
      | cons a l =>
        have := congrArg Ps.rest hq
        simp only [Ps.next] at this ⊢
        rw [this]
    rw [hp, hq]
    dsimp only
    generalize (Ps.next e ⟨t, l⟩).last = x at *
    by_cases hx : x.kind = .eq
    · have hx' : ¬ x.kind ≠ .eq := by simp [hx]
      rw [if_neg hx', if_neg hx']
      have hb2 := next_inside (eol := eol) (e := e) (eof := eof) (tl := tl) hg
      rcases both_kinds hb2 with ⟨k1, k2, l2, kg, kp, kq⟩ | ⟨kp, kq⟩
      · have hl2 : l' = (Ps.next e ⟨x, l'⟩).last :: l2 := by
          cases l' with
          | nil => exact absurd hE.heof k2.2
          | cons a l' =>
            have := congrArg Ps.rest kq
            simp only [Ps.next] at this ⊢
            rw [this]
        rw [kp, kq]
        dsimp only
        generalize (Ps.next e ⟨x, l'⟩).last = y at *
        by_cases hy : y.kind = .int
        · have hy' : ¬ y.kind ≠ .int := by simp [hy]
          rw [if_neg hy', if_neg hy']
          cases atoi y.text with
          | none => exact OutBoth.none
          | some n =>
            dsimp only [Option.bind_some]
            by_cases hn : n < 0
            · rw [if_pos hn, if_pos hn]
              exact OutBoth.some rfl rfl (Both.inside y l2 kg) (by simp)
            · rw [if_neg hn, if_neg hn]
              have hb3 := next_inside (eol := eol) (e := e) (eof := eof) (tl := tl) kg
              rcases both_kinds hb3 with ⟨m1, m2, l3, mg, mp, mq⟩ | ⟨mp, mq⟩
              · rw [mp, mq]
                dsimp only
                generalize (Ps.next e ⟨y, l2⟩).last = z at *
                cases stampUnit n z with
                | none => exact OutBoth.none
                | some m =>
                  dsimp only [Option.map_some]
                  by_cases hm : m < 0
                  · rw [if_pos hm, if_pos hm]
                    exact OutBoth.some rfl rfl (Both.inside z l3 mg) (by simp)
                  · rw [if_neg hm, if_neg hm]
                    exact OutBoth.some rfl rfl (Both.inside z l3 mg) (fun _ => m2.2)
              · exfalso
                have : l2 = [] := by
                  cases l2 with
                  | nil => rfl
                  | cons a l2 =>
                    exfalso
                    have := congrArg (fun p => p.last.kind) mq
                    simp only [Ps.next, hE.heof] at this
                    exact (kg.inLine a (by simp)).2 this
                refine h.stamp ⟨[], t, x, y, ?_, ht, hx, hy⟩
                rw [hl, hl2, this]
                rfl
        · rw [if_pos hy, if_pos hy]
          exact OutBoth.some rfl rfl (Both.inside y l2 kg) (by simp)
      · rw [kp, kq]
        dsimp only
        rw [if_pos (by rw [hE.heol]; decide), if_pos (by rw [hE.heof]; decide)]
        exact OutBoth.some rfl rfl Both.atEnd (by simp)
    · rw [if_pos hx, if_pos hx]
      exact OutBoth.some rfl rfl (Both.inside x l' hg) (by simp)
  · rw [hp, hq]
    dsimp only
    rw [if_pos (show eol.kind ≠ .eq by rw [hE.heol]; decide), if_pos (show e.kind ≠ .eq by rw [hE.heof]; decide)]
    exact OutBoth.some rfl rfl Both.atEnd (by simp)

theorem onOff_end (c : SConf) (set : Bool → SConf) (x : Cf) (h : x.kind = .eol ∨ x.kind = .eof) : onOff c x set = some (c, false) := by
  unfold onOff
  rcases h with h | h <;> rw [h] <;> rfl

theorem not_kind {x : Cf} (h : x.kind = .eol ∨ x.kind = .eof) : x.kind ≠ .str ∧ x.kind ≠ .int := by
  rcases h with h | h <;> rw [h] <;> decide

theorem optText_end {x : Cf} (h : x.kind = .eol ∨ x.kind = .eof) : optText x = none := by
  unfold optText
  rw [if_pos (by simp [(not_kind h).1])]

/-- A `switch` that reads one line at a time. -/
def LineSafe (F : Cf → Ps → SConf → Key → Option Out) : Prop :=
  ∀ (eol e eof : Cf) (tl : List Cf), Ends eol e → ∀ (t : Cf) (l : List Cf), GoodLine (t :: l) → ∀ (c : SConf) (k : Key), t.kind = .key k →
    OutBoth eol e tl (F eof ⟨t, l ++ eol :: tl⟩ c k) (F e ⟨t, l⟩ c k)

theorem bad_both {eol e : Cf} {tl : List Cf} {t : Cf} {l : List Cf} (h : GoodLine (t :: l)) (c : SConf) :
    OutBoth eol e tl (some ⟨⟨t, l ++ eol :: tl⟩, c, true⟩) (some ⟨⟨t, l⟩, c, true⟩) :=
  OutBoth.some rfl rfl (Both.inside t l h) (by simp)

theorem server_safe (env : CEnv) (isPid isPort : Bool) : LineSafe fun eof => serverClause env eof isPid isPort := by
  intro eol e eof tl hE t l h c k hk
  have K := fun {x : Cf} (hx : x.kind = .eol ∨ x.kind = .eof) => not_kind hx
  cases k with
  | coredump => unfold serverClause; dsimp only; exact clause_both hE h c _ (onOff_end c _)
  | coredumpdir => unfold serverClause; dsimp only; exact clause_both hE h c _ (fun x hx => by unfold setCoreDumpDir; rw [if_pos (K hx).1])
  | execpath => unfold serverClause; dsimp only; exact clause_both hE h c _ (fun x hx => by unfold setExecPath; rw [if_pos (K hx).1])
  | keepalive => unfold serverClause; dsimp only; exact clause_both hE h c _ (onOff_end c _)
  | logdir => unfold serverClause; dsimp only; exact clause_both hE h c _ (fun x hx => by unfold setLogDir; rw [if_pos (K hx).1])
  | logfile => unfold serverClause; dsimp only; exact clause_both hE h c _ (fun x hx => by unfold setLogFile; rw [if_pos (by simp [(K hx).1])])
  | loopback => unfold serverClause; dsimp only; exact clause_both hE h c _ (onOff_end c _)
  | nofile => unfold serverClause; dsimp only; exact clause_both hE h c _ (fun x hx => by unfold setNoFile; rw [if_pos (K hx).2])
  | pidfile => unfold serverClause; dsimp only; exact clause_both hE h c _ (fun x hx => by unfold setPidFile; rw [if_pos (by simp [(K hx).1])])
  | port => unfold serverClause; dsimp only; exact clause_both hE h c _ (fun x hx => by unfold setPort; rw [if_pos (K hx).2])
  | resetcmd => unfold serverClause; dsimp only; exact clause_both hE h c _ (fun x hx => by unfold setResetCmd; rw [if_pos (by simp [(K hx).1])])
  | syslog => unfold serverClause; dsimp only; exact clause_both hE h c _ (fun x hx => by unfold setSyslog; rw [if_pos (by simp [(K hx).1])])
  | tcpwrappers =>
    unfold serverClause
    dsimp only
    by_cases hw : env.withWrap = false
    · rw [if_pos hw, if_pos hw]; exact bad_both h c
    · rw [if_neg hw, if_neg hw]; exact clause_both hE h c _ (onOff_end c _)
  | timestamp => exact setStamp_both hE h hk c
  | _ => exact bad_both h c

theorem global_safe (env : CEnv) : LineSafe (globalClause env) := by
  intro eol e eof tl hE t l h c k hk
  cases k with
  | log => unfold globalClause; dsimp only; exact clause_both hE h c _ (fun x hx => by unfold setGlobalLog; rw [if_pos (not_kind hx).1])
  | logopts => unfold globalClause; dsimp only; exact clause_both hE h c _ (fun x hx => by rw [optText_end hx])
  | seropts => unfold globalClause; dsimp only; exact clause_both hE h c _ (fun x hx => by rw [optText_end hx])
  | ipmiopts =>
    unfold globalClause
    dsimp only
    by_cases hw : env.withIpmi = false
    · rw [if_pos hw, if_pos hw]; exact bad_both h c
    · rw [if_neg hw, if_neg hw]; exact clause_both hE h c _ (fun x hx => by rw [optText_end hx])
  | testopts => unfold globalClause; dsimp only; exact clause_both hE h c _ (fun x hx => by rw [optText_end hx])
  | _ => exact bad_both h c

theorem clause_rest (eof : Cf) (p : Ps) (c : SConf) (f : Cf → Option (SConf × Bool)) {o : Out} (h : clause eof p c f = some o) : o.ps.rest.length ≤ p.rest.length := by
  have hn : ∀ q : Ps, (q.next eof).rest.length ≤ q.rest.length := by
    intro q; unfold Ps.next; split <;> simp_all
  unfold clause at h
  split at h
  · cases h; exact hn p
  · rw [Option.map_eq_some_iff] at h
    obtain ⟨r, _, rfl⟩ := h
    exact Nat.le_trans (hn _) (hn p)

theorem next_rest (eof : Cf) (q : Ps) : (q.next eof).rest.length ≤ q.rest.length := by
  unfold Ps.next; split <;> simp_all

theorem next_less (eof : Cf) (q : Ps) (h : (q.next eof).last.kind ≠ eof.kind) : (q.next eof).rest.length < q.rest.length := by
  unfold Ps.next at *
  split at h
  · exact absurd rfl h
  · rename_i hq; simp [hq]

theorem setStamp_rest (eof : Cf) (p : Ps) (c : SConf) {o : Out} (h : setStamp eof p c = some o) : o.ps.rest.length ≤ p.rest.length := by
  have hn := next_rest eof
  unfold setStamp at h
  split at h
  · cases h; exact hn p
  · dsimp only at h
    split at h
    · cases h; exact Nat.le_trans (hn _) (hn p)
    · rw [Option.bind_eq_some_iff] at h
      obtain ⟨n, _, h⟩ := h
      split at h
      · cases h; exact Nat.le_trans (hn _) (hn p)
      · rw [Option.map_eq_some_iff] at h
        obtain ⟨r, _, h⟩ := h
        split at h <;> (cases h; exact Nat.le_trans (hn _) (Nat.le_trans (hn _) (hn p)))

theorem serverClause_rest (env : CEnv) (eof : Cf) (a b : Bool) (p : Ps) (c : SConf) (k : Key) {o : Out} (h : serverClause env eof a b p c k = some o) :
    o.ps.rest.length ≤ p.rest.length := by
  cases k with
  | tcpwrappers =>
    unfold serverClause at h
    dsimp only at h
    split at h
    · cases h; exact Nat.le_refl _
    · exact clause_rest eof p c _ h
  | timestamp => exact setStamp_rest eof p c h
  | coredump => unfold serverClause at h; dsimp only at h; exact clause_rest eof p c _ h
  | coredumpdir => unfold serverClause at h; dsimp only at h; exact clause_rest eof p c _ h
  | execpath => unfold serverClause at h; dsimp only at h; exact clause_rest eof p c _ h
  | keepalive => unfold serverClause at h; dsimp only at h; exact clause_rest eof p c _ h
  | logdir => unfold serverClause at h; dsimp only at h; exact clause_rest eof p c _ h
  | logfile => unfold serverClause at h; dsimp only at h; exact clause_rest eof p c _ h
  | loopback => unfold serverClause at h; dsimp only at h; exact clause_rest eof p c _ h
  | nofile => unfold serverClause at h; dsimp only at h; exact clause_rest eof p c _ h
  | pidfile => unfold serverClause at h; dsimp only at h; exact clause_rest eof p c _ h
  | port => unfold serverClause at h; dsimp only at h; exact clause_rest eof p c _ h
  | resetcmd => unfold serverClause at h; dsimp only at h; exact clause_rest eof p c _ h
  | syslog => unfold serverClause at h; dsimp only at h; exact clause_rest eof p c _ h
  | _ => cases h; exact Nat.le_refl _

theorem globalClause_rest (env : CEnv) (eof : Cf) (p : Ps) (c : SConf) (k : Key) {o : Out} (h : globalClause env eof p c k = some o) : o.ps.rest.length ≤ p.rest.length := by
  cases k with
  | ipmiopts =>
    unfold globalClause at h
    dsimp only at h
    split at h
    · cases h; exact Nat.le_refl _
    · exact clause_rest eof p c _ h
  | log => unfold globalClause at h; dsimp only at h; exact clause_rest eof p c _ h
  | logopts => unfold globalClause at h; dsimp only at h; exact clause_rest eof p c _ h
  | seropts => unfold globalClause at h; dsimp only at h; exact clause_rest eof p c _ h
  | testopts => unfold globalClause at h; dsimp only at h; exact clause_rest eof p c _ h
  | _ => cases h; exact Nat.le_refl _

/-- Outcomes of a directive's loop for the two parsers. -/
inductive DirBoth (eol e : Cf) (tl : List Cf) : Option Out → Option Out → Prop
  | none : DirBoth eol e tl none none
  | some {o o' : Out} (hc : o.conf = o'.conf) (he : o.err = o'.err) (hp : Both eol e tl o.ps o'.ps) (hi : o.err = false → o.ps = ⟨eol, tl⟩ ∧ o'.ps = ⟨e, []⟩) : DirBoth eol e tl (some o) (some o')

theorem dirLoop_both {eol e eof : Cf} {tl : List Cf} (hE : Ends eol e) (F : Cf → Ps → SConf → Key → Option Out) (hs : LineSafe F)
    (hr : ∀ (p : Ps) (c : SConf) (k : Key) (o : Out), F e p c k = some o → o.ps.rest.length ≤ p.rest.length) :
    ∀ (n m : Nat) (t : Cf) (l : List Cf) (c : SConf), GoodLine (t :: l) → l.length < n → l.length < m →
      DirBoth eol e tl (dirLoop eof (F eof) n ⟨t, l ++ eol :: tl⟩ c) (dirLoop e (F e) m ⟨t, l⟩ c) := by
  intro n
  induction n with
  | zero => intro m t l c _ h; omega
  | succ n ih =>
    intro m t l c hg hn hm
    cases m with
    | zero => omega
    | succ m =>
      have hb := next_inside (eol := eol) (e := e) (eof := eof) (tl := tl) hg
      rw [dirLoop, dirLoop]
      rcases both_kinds hb with ⟨h1, h2, l', hg', hp, hq⟩ | ⟨hp, hq⟩
      · have hl : l'.length < l.length := by
          have := next_less e ⟨t, l⟩ (by rw [hE.heof]; exact h2.2)
          rw [hq] at this
          exact this
        rw [hp, hq]
        dsimp only
        generalize (Ps.next e ⟨t, l⟩).last = x at *
        match hx : x.kind with
        | .eof => exact absurd hx h2.2
        | .eol => exact absurd hx h2.1
        | .err => exact DirBoth.some rfl rfl (Both.inside x l' hg') (by simp)
        | .int => exact DirBoth.some rfl rfl (Both.inside x l' hg') (by simp)
        | .str => exact DirBoth.some rfl rfl (Both.inside x l' hg') (by simp)
        | .eq => exact DirBoth.some rfl rfl (Both.inside x l' hg') (by simp)
        | .other => exact DirBoth.some rfl rfl (Both.inside x l' hg') (by simp)
        | .key k =>
          dsimp only
          have hk := hs eol e eof tl hE x l' hg' c k hx
          have hr' := hr ⟨x, l'⟩ c k
          generalize F eof ⟨x, l' ++ eol :: tl⟩ c k = r1 at *
          generalize F e ⟨x, l'⟩ c k = r2 at *
          cases hk with
          | none => exact DirBoth.none
          | @some o o' hc he hp' hi =>
            dsimp only [Option.bind_some]
            cases ho : o.err with
            | true =>
              rw [ho] at he
              rw [← he, if_pos rfl, if_pos rfl]
              exact DirBoth.some hc (by rw [ho, ← he]) hp' (by rw [ho]; simp)
            | false =>
              rw [ho] at he
              rw [← he, if_neg (by simp), if_neg (by simp)]
              have hlen := hr' o' rfl
              rcases both_kinds hp' with ⟨_, _, l3, hg3, hp3, hq3⟩ | ⟨hp3, hq3⟩
              · rw [hp3, hq3, hc]
                rw [hq3] at hlen
                dsimp only at hlen ⊢
                exact ih m _ l3 o'.conf hg3 (by omega) (by omega)
              · exfalso
                refine hi ho ?_
                rw [hq3]
                exact hE.heof
      · rw [hp, hq]
        dsimp only
        rw [hE.heol, hE.heof]
        exact DirBoth.some rfl rfl Both.atEnd (fun _ => ⟨rfl, rfl⟩)

theorem skipLine_inside {eol eof : Cf} {tl : List Cf} (h : eol.kind = .eol) : ∀ (l : List Cf) (t : Cf), GoodLine (t :: l) → skipLine eof t (l ++ eol :: tl) = ⟨eol, tl⟩
  | [], t, hg => by
    have := hg.inLine t List.mem_cons_self
    rw [List.nil_append, skipLine, if_neg (by simp [this.1, this.2])]
    cases tl with
    | nil => rw [skipLine, if_pos (by simp [h])]
    | cons x tl => rw [skipLine, if_pos (by simp [h])]
  | x :: l, t, hg => by
    have := hg.inLine t List.mem_cons_self
    rw [List.cons_append, skipLine, if_neg (by simp [this.1, this.2])]
    exact skipLine_inside h l x hg.tail

theorem skipLine_alone {e : Cf} : ∀ (l : List Cf) (t : Cf), GoodLine (t :: l) → skipLine e t l = ⟨e, []⟩
  | [], t, hg => by
    have := hg.inLine t List.mem_cons_self
    rw [skipLine, if_neg (by simp [this.1, this.2])]
  | x :: l, t, hg => by
    have := hg.inLine t List.mem_cons_self
    rw [skipLine, if_neg (by simp [this.1, this.2])]
    exact skipLine_alone l x hg.tail

/-- Where the two parsers are after a directive. -/
inductive ResBoth (eol e : Cf) (tl : List Cf) : Option (Ps × SConf) → Option (Ps × SConf) → Prop
  | none : ResBoth eol e tl none none
  | some (c : SConf) : ResBoth eol e tl (some (⟨eol, tl⟩, c)) (some (⟨e, []⟩, c))

theorem dirEnd_both {eol e eof : Cf} {tl : List Cf} (hE : Ends eol e) {o o' : Out} (hc : o.conf = o'.conf) (he : o.err = o'.err) (hp : Both eol e tl o.ps o'.ps)
    (hi : o.err = false → o.ps = ⟨eol, tl⟩ ∧ o'.ps = ⟨e, []⟩) : ResBoth eol e tl (some (dirEnd eof o)) (some (dirEnd e o')) := by
  unfold dirEnd
  cases ho : o.err with
  | false =>
    rw [ho] at he
    obtain ⟨h1, h2⟩ := hi ho
    rw [← he, if_neg (by simp), if_neg (by simp), h1, h2, hc]
    exact ResBoth.some _
  | true =>
    rw [ho] at he
    rw [← he, if_pos rfl, if_pos rfl]
    rcases both_kinds hp with ⟨_, _, l, hg, h1, h2⟩ | ⟨h1, h2⟩
    · rw [h1, h2, hc]
      dsimp only
      rw [skipLine_inside hE.heol l _ hg, skipLine_alone l _ hg]
      exact ResBoth.some _
    · rw [h1, h2, hc]
      dsimp only
      have e1 : skipLine eof eol tl = ⟨eol, tl⟩ := by
        cases tl with
        | nil => rw [skipLine, if_pos (by simp [hE.heol])]
        | cons x tl => rw [skipLine, if_pos (by simp [hE.heol])]
      have e2 : skipLine e e [] = ⟨e, []⟩ := by rw [skipLine, if_pos (by simp [hE.heof])]
      rw [e1, e2, hE.hline]
      exact ResBoth.some _

theorem parseServer_both (env : CEnv) {eol e eof : Cf} {tl : List Cf} (hE : Ends eol e) {t : Cf} {l : List Cf} (hg : GoodLine (t :: l)) (c : SConf) :
    ResBoth eol e tl (parseServer env eof ⟨t, l ++ eol :: tl⟩ c) (parseServer env e ⟨t, l⟩ c) := by
  have := dirLoop_both (eof := eof) (tl := tl) hE _ (server_safe env c.pidFile.isSome (decide (c.port ≥ 0))) (fun p c k o => serverClause_rest env e _ _ p c k)
    ((l ++ eol :: tl).length + 1) (l.length + 1) t l c hg (by simp; omega) (by omega)
  unfold parseServer
  dsimp only at this ⊢
  generalize dirLoop eof _ _ _ c = r1 at *
  generalize dirLoop e _ _ _ c = r2 at *
  cases this with
  | none => exact ResBoth.none
  | some hc he hp hi => exact dirEnd_both hE hc he hp hi

theorem parseGlobal_both (env : CEnv) {eol e eof : Cf} {tl : List Cf} (hE : Ends eol e) {t : Cf} {l : List Cf} (hg : GoodLine (t :: l)) (c : SConf) :
    ResBoth eol e tl (parseGlobal env eof ⟨t, l ++ eol :: tl⟩ c) (parseGlobal env e ⟨t, l⟩ c) := by
  have := dirLoop_both (eof := eof) (tl := tl) hE _ (global_safe env) (fun p c k o => globalClause_rest env e p c k)
    ((l ++ eol :: tl).length + 1) (l.length + 1) t l c hg (by simp; omega) (by omega)
  unfold parseGlobal
  dsimp only at this ⊢
  generalize dirLoop eof _ _ _ c = r1 at *
  generalize dirLoop e _ _ _ c = r2 at *
  cases this with
  | none => exact ResBoth.none
  | some hc he hp hi => exact dirEnd_both hE hc he hp hi

/-! CONSOLE -/

/-- Outcomes of a clause of a CONSOLE directive. -/
structure ConBoth (eol e : Cf) (tl : List Cf) (o o' : ConOut) : Prop where
  con : o.con = o'.con
  err : o.err = o'.err
  ps : Both eol e tl o.ps o'.ps

theorem conClause_both {eol e eof : Cf} {tl : List Cf} (hE : Ends eol e) {t : Cf} {l : List Cf} (h : GoodLine (t :: l)) (con : ConStrs) (f : Cf → Option ConStrs)
    (hf : ∀ x : Cf, x.kind = .eol ∨ x.kind = .eof → f x = none) :
    ConBoth eol e tl (conClause eof ⟨t, l ++ eol :: tl⟩ con f) (conClause e ⟨t, l⟩ con f) ∧ ((conClause e ⟨t, l⟩ con f).err = false → (conClause e ⟨t, l⟩ con f).ps.last.kind ≠ .eof) := by
  have hb := next_inside (eol := eol) (e := e) (eof := eof) (tl := tl) h
  unfold conClause
  rcases both_kinds hb with ⟨h1, h2, l', hg, hp, hq⟩ | ⟨hp, hq⟩
  · rw [hp, hq]
    dsimp only
    generalize (Ps.next e ⟨t, l⟩).last = x at *
    by_cases hx : x.kind = .eq
    · rw [if_neg (by simp [hx]), if_neg (by simp [hx])]
      have hb2 := next_inside (eol := eol) (e := e) (eof := eof) (tl := tl) hg
      rcases both_kinds hb2 with ⟨k1, k2, l2, kg, kp, kq⟩ | ⟨kp, kq⟩
      · rw [kp, kq]
        dsimp only
        generalize (Ps.next e ⟨x, l'⟩).last = y at *
        cases f y with
        | none => exact ⟨⟨rfl, rfl, Both.inside y l2 kg⟩, by simp⟩
        | some r => exact ⟨⟨rfl, rfl, Both.inside y l2 kg⟩, fun _ => k2.2⟩
      · rw [kp, kq]
        dsimp only
        rw [hf eol (Or.inl hE.heol), hf e (Or.inr hE.heof)]
        exact ⟨⟨rfl, rfl, Both.atEnd⟩, by simp⟩
    · rw [if_pos hx, if_pos hx]
      exact ⟨⟨rfl, rfl, Both.inside x l' hg⟩, by simp⟩
  · rw [hp, hq]
    dsimp only
    rw [if_pos (by rw [hE.heol]; decide), if_pos (by rw [hE.heof]; decide)]
    exact ⟨⟨rfl, rfl, Both.atEnd⟩, by simp⟩

theorem conClause_rest (eof : Cf) (p : Ps) (con : ConStrs) (f : Cf → Option ConStrs) : (conClause eof p con f).ps.rest.length ≤ p.rest.length := by
  have hn := next_rest eof
  unfold conClause
  split
  · exact hn p
  · split <;> exact Nat.le_trans (hn _) (hn p)

theorem consoleClause_rest (env : CEnv) (eof : Cf) (d : List UInt8) (p : Ps) (con : ConStrs) (k : Key) : (consoleClause env eof d p con k).ps.rest.length ≤ p.rest.length := by
  cases k with
  | ipmiopts =>
    unfold consoleClause
    dsimp only
    split
    · exact Nat.le_refl _
    · exact conClause_rest eof p con _
  | name => exact conClause_rest eof p con _
  | dev => exact conClause_rest eof p con _
  | log => exact conClause_rest eof p con _
  | logopts => exact conClause_rest eof p con _
  | seropts => exact conClause_rest eof p con _
  | testopts => exact conClause_rest eof p con _
  | _ => exact Nat.le_refl _

theorem anyText_end {x : Cf} (h : x.kind = .eol ∨ x.kind = .eof) : anyText x = none := by
  unfold anyText
  rw [if_pos (not_kind h).1]

theorem consoleClause_both (env : CEnv) {eol e eof : Cf} {tl : List Cf} (hE : Ends eol e) {t : Cf} {l : List Cf} (h : GoodLine (t :: l)) (d : List UInt8) (con : ConStrs) (k : Key) :
    ConBoth eol e tl (consoleClause env eof d ⟨t, l ++ eol :: tl⟩ con k) (consoleClause env e d ⟨t, l⟩ con k) ∧
      ((consoleClause env e d ⟨t, l⟩ con k).err = false → (consoleClause env e d ⟨t, l⟩ con k).ps.last.kind ≠ .eof) := by
  have bad : ConBoth eol e tl ⟨⟨t, l ++ eol :: tl⟩, con, true⟩ ⟨⟨t, l⟩, con, true⟩ := ⟨rfl, rfl, Both.inside t l h⟩
  cases k with
  | ipmiopts =>
    unfold consoleClause
    dsimp only
    by_cases hw : env.withIpmi = false
    · rw [if_pos hw, if_pos hw]; exact ⟨bad, by simp⟩
    · rw [if_neg hw, if_neg hw]; exact conClause_both hE h con _ (fun x hx => by rw [anyText_end hx]; rfl)
  | name => unfold consoleClause; dsimp only; exact conClause_both hE h con _ (fun x hx => by rw [optText_end hx]; rfl)
  | dev => unfold consoleClause; dsimp only; exact conClause_both hE h con _ (fun x hx => by rw [optText_end hx]; rfl)
  | log => unfold consoleClause; dsimp only; exact conClause_both hE h con _ (fun x hx => by unfold conLog; rw [if_pos (not_kind hx).1]; rfl)
  | logopts => unfold consoleClause; dsimp only; exact conClause_both hE h con _ (fun x hx => by rw [optText_end hx]; rfl)
  | seropts => unfold consoleClause; dsimp only; exact conClause_both hE h con _ (fun x hx => by rw [optText_end hx]; rfl)
  | testopts => unfold consoleClause; dsimp only; exact conClause_both hE h con _ (fun x hx => by rw [anyText_end hx]; rfl)
  | _ => exact ⟨bad, by simp [consoleClause]⟩

theorem conLoop_both (env : CEnv) {eol e eof : Cf} {tl : List Cf} (hE : Ends eol e) (d : List UInt8) :
    ∀ (n m : Nat) (t : Cf) (l : List Cf) (con : ConStrs), GoodLine (t :: l) → l.length < n → l.length < m →
      ∃ o o', conLoop env eof d n ⟨t, l ++ eol :: tl⟩ con = some o ∧ conLoop env e d m ⟨t, l⟩ con = some o' ∧ ConBoth eol e tl o o' ∧
        (o.err = false → o.ps = ⟨eol, tl⟩ ∧ o'.ps = ⟨e, []⟩) := by
  intro n
  induction n with
  | zero => intro m t l c _ h; omega
  | succ n ih =>
    intro m t l con hg hn hm
    cases m with
    | zero => omega
    | succ m =>
      have hb := next_inside (eol := eol) (e := e) (eof := eof) (tl := tl) hg
      rw [conLoop, conLoop]
      rcases both_kinds hb with ⟨h1, h2, l', hg', hp, hq⟩ | ⟨hp, hq⟩
      · have hl : l'.length < l.length := by
          have := next_less e ⟨t, l⟩ (by rw [hE.heof]; exact h2.2)
          rw [hq] at this
          exact this
        rw [hp, hq]
        dsimp only
        generalize (Ps.next e ⟨t, l⟩).last = x at *
        have bad : ConBoth eol e tl ⟨⟨x, l' ++ eol :: tl⟩, con, true⟩ ⟨⟨x, l'⟩, con, true⟩ := ⟨rfl, rfl, Both.inside x l' hg'⟩
        match hx : x.kind with
        | .eof => exact absurd hx h2.2
        | .eol => exact absurd hx h2.1
        | .err => exact ⟨_, _, rfl, rfl, bad, by simp⟩
        | .int => exact ⟨_, _, rfl, rfl, bad, by simp⟩
        | .str => exact ⟨_, _, rfl, rfl, bad, by simp⟩
        | .eq => exact ⟨_, _, rfl, rfl, bad, by simp⟩
        | .other => exact ⟨_, _, rfl, rfl, bad, by simp⟩
        | .key k =>
          dsimp only
          obtain ⟨hk, hi⟩ := consoleClause_both env (eof := eof) (tl := tl) hE hg' d con k
          have hr' := consoleClause_rest env e d ⟨x, l'⟩ con k
          generalize consoleClause env eof d ⟨x, l' ++ eol :: tl⟩ con k = o at *
          generalize consoleClause env e d ⟨x, l'⟩ con k = o' at *
          cases ho : o'.err with
          | true =>
            rw [hk.err, ho, if_pos rfl, if_pos rfl]
            exact ⟨_, _, rfl, rfl, hk, by rw [hk.err, ho]; simp⟩
          | false =>
            rw [hk.err, ho, if_neg (by simp), if_neg (by simp)]
            rcases both_kinds hk.ps with ⟨_, _, l3, hg3, hp3, hq3⟩ | ⟨hp3, hq3⟩
            · rw [hq3] at hr'
              dsimp only at hr'
              rw [hp3, hq3, hk.con]
              dsimp only
              exact ih m _ l3 o'.con hg3 (by omega) (by omega)
            · exfalso
              refine hi ho ?_
              rw [hq3]
              exact hE.heof
      · rw [hp, hq]
        dsimp only
        rw [hE.heol, hE.heof]
        exact ⟨_, _, rfl, rfl, ⟨rfl, rfl, Both.atEnd⟩, fun _ => ⟨rfl, rfl⟩⟩

theorem parseConsole_both (env : CEnv) {eol e eof : Cf} {tl : List Cf} (hE : Ends eol e) {t : Cf} {l : List Cf} (hg : GoodLine (t :: l)) (c : SConf) :
    ResBoth eol e tl (parseConsole env eof ⟨t, l ++ eol :: tl⟩ c) (parseConsole env e ⟨t, l⟩ c) := by
  obtain ⟨o, o', h1, h2, hb, hi⟩ := conLoop_both env (eof := eof) (tl := tl) hE c.logDir ((l ++ eol :: tl).length + 1) (l.length + 1) t l {} hg (by simp; omega) (by omega)
  unfold parseConsole
  dsimp only at h1 h2 ⊢
  rw [h1, h2]
  dsimp only [Option.bind_some]
  unfold conDone
  cases ho : o'.err with
  | true =>
    rw [hb.err, ho, if_pos rfl, if_pos rfl]
    exact dirEnd_both hE rfl rfl hb.ps (by simp)
  | false =>
    have ho2 : o.err = false := by rw [hb.err, ho]
    obtain ⟨q1, q2⟩ := hi ho2
    rw [ho2, if_neg (by simp), if_neg (by simp), hb.con, q1, q2]
    dsimp only
    rw [hE.hline]
    cases o'.con.name with
    | none => exact dirEnd_both hE rfl rfl Both.atEnd (by simp)
    | some name =>
      cases o'.con.dev with
      | none => exact dirEnd_both hE rfl rfl Both.atEnd (by simp)
      | some dev =>
        dsimp only
        cases processConsole env c o'.con e.line name dev with
        | none => exact ResBoth.none
        | some r => exact dirEnd_both hE rfl rfl Both.atEnd (fun _ => ⟨rfl, rfl⟩)

end Conman

namespace Conman

open Spec (Cf.inLine Line BareStamp)

theorem skipLine_rest (eof : Cf) : ∀ (ts : List Cf) (t : Cf), (skipLine eof t ts).rest.length ≤ ts.length
  | [], t => by rw [skipLine]; split <;> simp
  | x :: ts, t => by
    rw [skipLine]
    split
    · simp
    · have := skipLine_rest eof ts x
      simp only [List.length_cons]
      omega

theorem dirEnd_rest (eof : Cf) (o : Out) : (dirEnd eof o).1.rest.length ≤ o.ps.rest.length := by
  unfold dirEnd
  split
  · exact skipLine_rest eof _ _
  · exact Nat.le_refl _

theorem dirLoop_rest (eof : Cf) (f : Ps → SConf → Key → Option Out) (hr : ∀ (p : Ps) (c : SConf) (k : Key) (o : Out), f p c k = some o → o.ps.rest.length ≤ p.rest.length) :
    ∀ (n : Nat) (p : Ps) (c : SConf) (o : Out), dirLoop eof f n p c = some o → o.ps.rest.length ≤ p.rest.length := by
  intro n
  induction n with
  | zero => intro p c o h; rw [dirLoop] at h; cases h
  | succ n ih =>
    intro p c o h
    have hn := next_rest eof p
    rw [dirLoop] at h
    split at h
    · cases h; exact hn
    · cases h; exact hn
    · rw [Option.bind_eq_some_iff] at h
      obtain ⟨q, hq, h⟩ := h
      have := hr _ _ _ _ hq
      split at h
      · cases h; omega
      · have := ih _ _ _ h; omega
    · cases h; exact hn

theorem conLoop_rest (env : CEnv) (eof : Cf) (d : List UInt8) :
    ∀ (n : Nat) (p : Ps) (con : ConStrs) (o : ConOut), conLoop env eof d n p con = some o → o.ps.rest.length ≤ p.rest.length := by
  intro n
  induction n with
  | zero => intro p c o h; rw [conLoop] at h; cases h
  | succ n ih =>
    intro p con o h
    have hn := next_rest eof p
    rw [conLoop] at h
    split at h
    · cases h; exact hn
    · cases h; exact hn
    · have := consoleClause_rest env eof d (p.next eof) con
      split at h
      · cases h; exact Nat.le_trans (this _) hn
      · exact Nat.le_trans (ih _ _ _ h) (Nat.le_trans (this _) hn)
    · cases h; exact hn

theorem directive_rest (env : CEnv) (eof t : Cf) (ts : List Cf) (c : SConf) {r : Ps × SConf} (h : directive env eof t ts c = some r) : r.1.rest.length ≤ ts.length := by
  unfold directive at h
  split at h
  · unfold parseConsole at h
    rw [Option.bind_eq_some_iff] at h
    obtain ⟨o, ho, h⟩ := h
    have h1 := conLoop_rest env eof _ _ _ _ _ ho
    unfold conDone at h
    split at h
    · cases h; exact Nat.le_trans (dirEnd_rest eof _) h1
    · split at h
      · rw [Option.map_eq_some_iff] at h
        obtain ⟨q, _, rfl⟩ := h
        exact Nat.le_trans (dirEnd_rest eof _) h1
      · cases h; exact Nat.le_trans (dirEnd_rest eof _) h1
  · unfold parseGlobal at h
    rw [Option.map_eq_some_iff] at h
    obtain ⟨q, hq, rfl⟩ := h
    exact Nat.le_trans (dirEnd_rest eof _) (dirLoop_rest eof _ (fun p c k o => globalClause_rest env eof p c k) _ _ _ _ hq)
  · unfold parseServer at h
    rw [Option.map_eq_some_iff] at h
    obtain ⟨q, hq, rfl⟩ := h
    exact Nat.le_trans (dirEnd_rest eof _) (dirLoop_rest eof _ (fun p c k o => serverClause_rest env eof _ _ p c k) _ _ _ _ hq)
  · cases h; exact Nat.le_refl _
  · cases h; exact Nat.le_refl _
  · cases h; exact dirEnd_rest eof _

theorem confLoop_fuel (env : CEnv) (eof : Cf) : ∀ (n m : Nat) (ts : List Cf) (c : SConf), ts.length < n → ts.length < m → confLoop env eof n ts c = confLoop env eof m ts c := by
  intro n
  induction n with
  | zero => intro m ts c h; omega
  | succ n ih =>
    intro m ts c hn hm
    cases m with
    | zero => omega
    | succ m =>
      cases ts with
      | nil => rw [confLoop, confLoop]
      | cons t ts =>
        rw [confLoop, confLoop]
        simp only [List.length_cons] at hn hm
        split
        · rfl
        · cases hd : directive env eof t ts c with
          | none => rfl
          | some r =>
            have := directive_rest env eof t ts c hd
            exact ih m _ _ (by omega) (by omega)

theorem runConf_cons (env : CEnv) (eof t : Cf) (ts : List Cf) (c : SConf) (h : t.kind ≠ .eof) :
    runConf env eof (t :: ts) c = (directive env eof t ts c).bind fun r => runConf env eof r.1.rest r.2 := by
  unfold runConf
  rw [List.length_cons, confLoop, if_neg h]
  cases hd : directive env eof t ts c with
  | none => rfl
  | some r =>
    have := directive_rest env eof t ts c hd
    exact confLoop_fuel env eof _ _ _ _ (by omega) (by omega)

theorem runConf_nil (env : CEnv) (eof : Cf) (c : SConf) : runConf env eof [] c = some c := by
  unfold runConf
  rw [List.length_nil, confLoop]

theorem directive_both (env : CEnv) {eol e eof : Cf} {tl : List Cf} (hE : Ends eol e) {t : Cf} {l : List Cf} (hg : GoodLine (t :: l)) (he : t.kind ≠ .err) (c : SConf) :
    ResBoth eol e tl (directive env eof t (l ++ eol :: tl) c) (directive env e t l c) := by
  unfold directive
  have ht := hg.inLine t List.mem_cons_self
  have bad : ResBoth eol e tl (some (dirEnd eof ⟨⟨t, l ++ eol :: tl⟩, c, true⟩)) (some (dirEnd e ⟨⟨t, l⟩, c, true⟩)) :=
    dirEnd_both hE rfl rfl (Both.inside t l hg) (by simp)
  match hk : t.kind with
  | .eof => exact absurd hk ht.2
  | .eol => exact absurd hk ht.1
  | .err => exact absurd hk he
  | .int => exact bad
  | .str => exact bad
  | .eq => exact bad
  | .other => exact bad
  | .key k =>
    cases k with
    | console => exact parseConsole_both env hE hg c
    | global => exact parseGlobal_both env hE hg c
    | server => exact parseServer_both env hE hg c
    | _ => exact bad

theorem line_runs (env : CEnv) {eol e eof : Cf} {tl l : List Cf} (hE : Ends eol e) (hl : Line l) (hs : ¬ BareStamp l) (c : SConf) :
    runConf env eof (l ++ eol :: tl) c = (runConf env e l c).bind (runConf env eof tl) := by
  have hne : eol.kind ≠ .eof := by rw [hE.heol]; decide
  have hD : ∀ c, directive env eof eol tl c = some (⟨eol, tl⟩, c) := by
    intro c; unfold directive; rw [hE.heol]
  cases l with
  | nil =>
    rw [List.nil_append, runConf_cons env eof eol tl c hne, hD, runConf_nil]
    rfl
  | cons t l =>
    have hg : GoodLine (t :: l) := ⟨hl.inLine, hs⟩
    have ht := hg.inLine t List.mem_cons_self
    rw [List.cons_append, runConf_cons env eof t _ c ht.2, runConf_cons env e t _ c ht.2]
    by_cases he : t.kind = .err
    · have : l = [] := hl.quote [] t l rfl he
      subst this
      have h1 : ∀ (f : Cf) (ts : List Cf), directive env f t ts c = some (⟨t, ts⟩, { c with errs := c.errs ++ [t.line] }) := by
        intro f ts; unfold directive; rw [he]
      rw [h1, h1]
      dsimp only [Option.bind_some, List.nil_append]
      rw [runConf_nil, runConf_cons env eof eol tl _ hne, hD]
      rfl
    · have := directive_both env (eof := eof) (tl := tl) hE hg he c
      generalize directive env eof t (l ++ eol :: tl) c = r1 at *
      generalize directive env e t l c = r2 at *
      cases this with
      | none => rfl
      | some c' =>
        dsimp only [Option.bind_some]
        rw [runConf_nil]
        rfl

end Conman
