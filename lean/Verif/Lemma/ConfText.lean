import Verif.Lemma.Conf
import Verif.Props.Lex
import Verif.Lemma.Opts

/-
From the text of a configuration file to its lines.
-/
namespace Conman

open Spec (Cf.inLine Line BareStamp linesOf KindOf CfsOf keyText Lexes IsToken Token Skips atLineEnd isNl)

theorem keys_sync (ipmi : Bool) (i : Nat) (h : i < (serverConfStrs ipmi).length) :
    ∃ k, (confKeys ipmi)[i]? = some k ∧ (serverConfStrs ipmi)[i]? = some (keyText k) := by
  have : ∀ ipmi, (serverConfStrs ipmi) = (confKeys ipmi).map keyText := by decide
  have hl : (confKeys ipmi).length = (serverConfStrs ipmi).length := by rw [this, List.length_map]
  refine ⟨(confKeys ipmi)[i]'(by omega), List.getElem?_eq_getElem _, ?_⟩
  rw [this, List.getElem?_map, List.getElem?_eq_getElem (by omega)]
  rfl

theorem chr_kind (ipmi : Bool) (c : UInt8) : cfKind ipmi (Token.code (.chr c)) = if c = 0x3D then .eq else if c = 0xFF then .err else if c = 0 then .eof else .other := by
  cases ipmi
  · exact byte_all (P := fun c => cfKind false (Token.code (.chr c)) = if c = 0x3D then .eq else if c = 0xFF then .err else if c = 0 then .eof else .other) (by decide +kernel) c
  · exact byte_all (P := fun c => cfKind true (Token.code (.chr c)) = if c = 0x3D then .eq else if c = 0xFF then .err else if c = 0 then .eof else .other) (by decide +kernel) c

theorem token_kind (ipmi : Bool) {b r text : List UInt8} {t : Token} (h : IsToken (serverConfStrs ipmi) b r text t) (h0 : (0 : UInt8) ∉ b) :
    KindOf (serverConfStrs ipmi) t (cfKind ipmi t.code) := by
  cases h with
  | eof => exact KindOf.eof
  | lf => exact KindOf.eol
  | crlf => exact KindOf.eol
  | cr => exact KindOf.eol
  | quoted => exact KindOf.str
  | unmatched => exact KindOf.err
  | keyword c w _ hc hw hr i k hi hk =>
    have hlt : i < (serverConfStrs ipmi).length := by
      rcases Nat.lt_or_ge i (serverConfStrs ipmi).length with hn | hn
      · exact hn
      · rw [List.getElem?_eq_none hn] at hi
        cases hi
    obtain ⟨κ, h1, h2⟩ := keys_sync ipmi i hlt
    have : cfKind ipmi (Token.code (.key i)) = .key κ := by
      unfold cfKind Token.code
      have e : ((259 + (i : Int)) - lexTokOffset).toNat = i := by unfold lexTokOffset; omega
      dsimp only
      rw [if_neg (by unfold lexEof; omega), if_neg (by unfold lexEol; omega), if_neg (by unfold lexErr; omega), if_neg (by unfold lexInt; omega), if_neg (by unfold lexStr; omega),
        if_neg (by omega), if_neg (by unfold lexTokOffset; omega), e, h1]
    rw [this]
    exact KindOf.key i κ h2
  | word => exact KindOf.str
  | number => exact KindOf.int
  | signed => exact KindOf.int
  | chr c _ h hs hb =>
    have hc : c ≠ 0 := by rintro rfl; exact h0 (by simp)
    rw [chr_kind, if_neg hc]
    split
    · rename_i e; subst e; exact KindOf.eq
    · split
      · rename_i e; subst e; exact KindOf.xff
      · rename_i e1 e2; exact KindOf.other c e1 e2 hc

/-- The tokens of the parser. -/
def cfs (ipmi : Bool) (ts : List (Token × List UInt8 × Nat)) : List Cf := ts.map fun t => ⟨cfKind ipmi t.1.code, t.2.1, t.2.2⟩

theorem cfs_of (ipmi : Bool) {before s : List UInt8} {ts : List (Token × List UInt8 × Nat)} (h : Lexes (serverConfStrs ipmi) before s ts) (h0 : (0 : UInt8) ∉ s) :
    CfsOf (serverConfStrs ipmi) ts (cfs ipmi ts) := by
  induction h with
  | done before a ha => exact CfsOf.cons _ _ _ _ _ _ KindOf.eof CfsOf.nil
  | step before a b r text t ts ha hb hn hr ih =>
    exact CfsOf.cons _ _ _ _ _ _ (token_kind ipmi hb (fun h => h0 (by simp [h]))) (ih (fun h => h0 (by simp [h])))

/-- How the tokens of a file can follow each other. -/
inductive Follow : List Cf → Prop
  | last (e : Cf) (h : e.kind = .eof) : Follow [e]
  | cons (t : Cf) (ts : List Cf) (h : t.kind ≠ .eof) (hq : t.kind = .err → ∀ x, ts.head? = some x → x.kind = .eol ∨ x.kind = .eof) (h' : Follow ts) : Follow (t :: ts)

theorem skips_lineEnd {a b : List UInt8} (h : Skips a b) (he : atLineEnd (a ++ b)) : a = [] := by
  cases h with
  | nil => rfl
  | blank c hc a _ h' =>
    exfalso
    have := he c rfl
    revert this hc
    unfold isNl
    rintro (rfl | rfl | rfl | rfl) <;> decide
  | comment w hw a _ h h' => exfalso; have := he 0x23 rfl; revert this; unfold isNl; decide
  | continued nl h a _ h' => exfalso; have := he 0x5C rfl; revert this; unfold isNl; decide

theorem lineEnd_token {keys : List (List UInt8)} {b r text : List UInt8} {t : Token} (h : IsToken keys b r text t) (he : atLineEnd (b ++ r)) (hb : b ≠ []) : t = .eol := by
  have nl : ∀ c, isNl c → c = 0x0D ∨ c = 0x0A := fun c h => h
  cases h with
  | eof => exact absurd rfl hb
  | lf => rfl
  | crlf => rfl
  | cr => rfl
  | quoted q hq w _ hw => have := nl _ (he q rfl); rcases hq with rfl | rfl <;> revert this <;> decide
  | unmatched q hq w _ hw hr => have := nl _ (he q rfl); rcases hq with rfl | rfl <;> revert this <;> decide
  | keyword c w _ hc =>
    have := nl _ (he c rfl)
    rcases this with rfl | rfl <;> exact absurd hc (by decide)
  | word c w _ hc =>
    have := nl _ (he c rfl)
    rcases this with rfl | rfl <;> exact absurd hc (by decide)
  | number w _ h0 hw =>
    cases b with
    | nil => exact absurd rfl h0
    | cons c w =>
      have := nl _ (he c rfl)
      have hc := hw c List.mem_cons_self
      rcases this with rfl | rfl <;> exact absurd hc (by decide)
  | signed s hs w => have := nl _ (he s rfl); rcases hs with rfl | rfl <;> revert this <;> decide
  | chr c _ h => exact absurd (he c rfl) (fun hn => h (by simp [hn]))

theorem follow_of (ipmi : Bool) {before s : List UInt8} {ts : List (Token × List UInt8 × Nat)} (h : Lexes (serverConfStrs ipmi) before s ts) (h0 : (0 : UInt8) ∉ s)
    (hff : ∀ t ∈ ts, t.1 ≠ .chr 0xFF) : Follow (cfs ipmi ts) := by
  induction h with
  | done before a ha => exact Follow.last _ rfl
  | step before a b r text t ts ha hb hn hr ih =>
    have hk := token_kind ipmi hb (fun h => h0 (by simp [h]))
    refine Follow.cons _ _ ?_ ?_ (ih (fun h => h0 (by simp [h])) (fun t ht => hff t (List.mem_cons_of_mem _ ht)))
    · intro he
      dsimp only at he
      rw [he] at hk
      cases hk
      cases hb
      exact hn rfl
    · intro he x hx
      dsimp only at he
      rw [he] at hk
      have ht : t = .err := by
        cases hk with
        | err => rfl
        | xff => exact absurd rfl (hff _ List.mem_cons_self)
      subst ht
      have hle : atLineEnd r := by cases hb with | unmatched q hq w _ hw hr => exact hr
      cases hr with
      | done _ a ha =>
        simp only [List.map_cons, List.map_nil, List.head?_cons, Option.some.injEq] at hx
        rw [← hx]
        exact Or.inr rfl
      | step _ a2 b2 r2 text2 t2 ts2 ha2 hb2 hn2 hr2 =>
        have : a2 = [] := skips_lineEnd ha2 (by rw [← List.append_assoc]; exact hle)
        subst this
        have : t2 = .eol := lineEnd_token hb2 hle hn2
        subst this
        simp only [List.map_cons, List.head?_cons, Option.some.injEq] at hx
        rw [← hx]
        exact Or.inl rfl

/-- The first line of a file. -/
theorem follow_line : ∀ (cs : List Cf), Follow cs → ∃ l x rest, cs = l ++ x :: rest ∧ Line l ∧ linesOf cs = (l, x) :: linesOf rest ∧
    ((x.kind = .eol ∧ Follow rest) ∨ (x.kind = .eof ∧ rest = [])) := by
  intro cs h
  induction h with
  | last e h =>
    refine ⟨[], e, [], rfl, ⟨by simp, by simp⟩, ?_, Or.inr ⟨h, rfl⟩⟩
    simp only [linesOf, if_pos (show e.kind = .eol ∨ e.kind = .eof from Or.inr h)]
  | cons t ts h hq h' ih =>
    by_cases hl : t.kind = .eol
    · refine ⟨[], t, ts, rfl, ⟨by simp, by simp⟩, ?_, Or.inl ⟨hl, h'⟩⟩
      simp only [linesOf, if_pos (show t.kind = .eol ∨ t.kind = .eof from Or.inl hl)]
    · obtain ⟨l, x, rest, h1, h2, h3, h4⟩ := ih
      refine ⟨t :: l, x, rest, by rw [h1]; rfl, ⟨?_, ?_⟩, ?_, h4⟩
      · intro y hy
        rcases List.mem_cons.1 hy with rfl | hy
        · exact ⟨hl, h⟩
        · exact h2.inLine y hy
      · intro a y b he hy
        cases a with
        | nil =>
          simp only [List.nil_append, List.cons.injEq] at he
          obtain ⟨rfl, rfl⟩ := he
          cases l with
          | nil => rfl
          | cons z l =>
            exfalso
            have hz := h2.inLine z List.mem_cons_self
            rcases hq hy z (by rw [h1]; rfl) with hz' | hz'
            · exact hz.1 hz'
            · exact hz.2 hz'
        | cons a0 a =>
          simp only [List.cons_append, List.cons.injEq] at he
          exact h2.quote a y b he.2 hy
      · simp only [linesOf, if_neg (show ¬ (t.kind = .eol ∨ t.kind = .eof) from fun g => g.elim hl h), h3]

theorem follow_last {cs : List Cf} (h : Follow cs) : ∃ e, cs.getLast? = some e ∧ e.kind = .eof ∧ cs = cs.dropLast ++ [e] := by
  induction h with
  | last e h => exact ⟨e, rfl, h, rfl⟩
  | cons t ts h hq h' ih =>
    obtain ⟨e, h1, h2, h3⟩ := ih
    cases ts with
    | nil => cases h1
    | cons y ts =>
      refine ⟨e, ?_, h2, ?_⟩
      · rw [List.getLast?_cons_cons]; exact h1
      · rw [List.dropLast_cons_cons]
        rw [List.cons_append, ← h3]

/-- A file is processed line by line. -/
theorem run_lines (env : CEnv) : ∀ (n : Nat) (cs : List Cf), cs.length = n → Follow cs → (∀ p ∈ linesOf cs, p.2.kind = .eol → ¬ BareStamp p.1) → ∀ (e : Cf), cs.getLast? = some e → ∀ c,
    runConf env e cs.dropLast c = (linesOf cs).foldlM (fun c p => runConf env { p.2 with kind := .eof } p.1 c) c := by
  intro n
  induction n using Nat.strongRecOn with
  | _ n ih =>
    intro cs hn hf hb e he c
    obtain ⟨l, x, rest, h1, h2, h3, h4⟩ := follow_line cs hf
    rw [h3, List.foldlM_cons]
    rcases h4 with ⟨hx, hr⟩ | ⟨hx, hr⟩
    · obtain ⟨e', g1, g2, g3⟩ := follow_last hr
      have hne : rest ≠ [] := by rintro rfl; cases g1
      have hd : cs.dropLast = l ++ x :: rest.dropLast := by
        rw [h1, List.dropLast_append_of_ne_nil (by simp), List.dropLast_cons_of_ne_nil hne]
      have he' : e' = e := by
        rw [h1, List.getLast?_append, List.getLast?_cons, g1] at he
        simpa using he
      subst he'
      have hE : Ends x { x with kind := .eof } := ⟨hx, rfl, rfl⟩
      rw [hd, line_runs env hE h2 (hb (l, x) (by rw [h3]; simp) hx) c]
      show Option.bind _ _ = Option.bind _ _
      congr 1
      funext c'
      exact ih rest.length (by rw [← hn, h1]; simp; omega) rest rfl hr (fun p hp => hb p (by rw [h3]; exact List.mem_cons_of_mem _ hp)) e' g1 c'
    · subst hr
      rw [h1] at he ⊢
      have he' : x = e := by simpa using he
      subst he'
      have : ({ x with kind := .eof } : Cf) = x := by rw [← hx]
      rw [List.dropLast_concat]
      dsimp only
      rw [this, linesOf]
      cases runConf env x l c <;> rfl

theorem kindOf_unique (ipmi : Bool) {t : Token} {k k' : CKind} (h : KindOf (serverConfStrs ipmi) t k) (h' : KindOf (serverConfStrs ipmi) t k') : k = k' := by
  have inj : ∀ a b : Key, keyText a = keyText b → a = b := by
    intro a b e
    have hne : ∀ a b : Key, a ≠ b → keyText a ≠ keyText b := by
      intro a b
      cases a <;> cases b <;> decide
    rcases Decidable.em (a = b) with g | g
    · exact g
    · exact absurd e (hne a b g)
  cases h <;> cases h' <;> first | rfl | contradiction | skip
  rename_i i a hi b hj
  rw [hi] at hj
  rw [inj a b (Option.some.inj hj)]

theorem cfsOf_unique (ipmi : Bool) {ts : List (Token × List UInt8 × Nat)} {cs cs' : List Cf} (h : CfsOf (serverConfStrs ipmi) ts cs) (h' : CfsOf (serverConfStrs ipmi) ts cs') : cs = cs' := by
  induction h generalizing cs' with
  | nil => cases h'; rfl
  | cons t text line k ts cs hk h ih =>
    cases h' with
    | cons _ _ _ k' _ cs' hk' h' => rw [kindOf_unique ipmi hk hk', ih h']

theorem processConfig_lines (env : CEnv) (s : List UInt8) (h0 : (0 : UInt8) ∉ s) (c : SConf) (ts : List (Token × List UInt8 × Nat)) (cs : List Cf)
    (h1 : Lexes (serverConfStrs env.withIpmi) [] s ts) (hcs : CfsOf (serverConfStrs env.withIpmi) ts cs)
    (hff : ∀ t ∈ ts, t.1 ≠ .chr 0xFF) (hb : ∀ p ∈ linesOf cs, p.2.kind = .eol → ¬ BareStamp p.1) :
    processConfig env s c = ((linesOf cs).foldlM (fun c p => runConf env { p.2 with kind := .eof } p.1 c) c).map defaultPort := by
  have h3 := C14_complete (serverConfStrs env.withIpmi) (C17_tables.2 env.withIpmi) s [] h0 ts h1
  have := cfsOf_unique env.withIpmi hcs (cfs_of env.withIpmi h1 h0)
  subst this
  have hf := follow_of env.withIpmi h1 h0 hff
  obtain ⟨e, g1, g2, g3⟩ := follow_last hf
  unfold processConfig
  rw [h3]
  dsimp only [Option.bind_some]
  have : (ts.map (fun x => (x.1.code, x.2.1, x.2.2))).map (fun t => (⟨cfKind env.withIpmi t.1, t.2.1, t.2.2⟩ : Cf)) = cfs env.withIpmi ts := by
    rw [List.map_map]; rfl
  rw [this, g1]
  dsimp only
  rw [run_lines env _ _ rfl hf hb e g1 c]

end Conman
