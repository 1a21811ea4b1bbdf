import Verif.Lemma.Conf
import Verif.Lemma.Opts
import Verif.Lemma.Dec
import Verif.Lemma.ProtoAny
import Verif.Props.Syslog

/-
Lemmas on the settings of SERVER directives.
-/
namespace Conman

open Spec (Cf.inLine Line BareStamp Blank blankChar NumText Num Text Flag Fits1 inDir Setting Writes Sets SetAll serverKeys BadValue Malformed digit Written PriorityName FacilityName)

theorem isEmptyString_iff (s : List UInt8) : isEmptyString s = true ↔ Blank s := by
  unfold isEmptyString Blank
  rw [List.all_eq_true]
  exact ⟨fun h c hc => (isSpace_iff c).1 (h c hc), fun h c hc => (isSpace_iff c).2 (h c hc)⟩

theorem not_empty {s : List UInt8} (h : ¬ Blank s) : isEmptyString s = false := by
  cases hb : isEmptyString s with
  | false => rfl
  | true => exact absurd ((isEmptyString_iff s).1 hb) h

theorem relName_fits {dir name : List UInt8} (h : Fits1 dir name) : relName dir name = inDir dir name := by
  unfold relName inDir joinFormat
  rcases h with h | h
  · rw [if_neg (by simp [h]), if_pos h]
  · by_cases h2 : name.head? = some 0x2F
    · rw [if_neg (by simp [h2]), if_pos h2]
    · rw [if_pos h2, if_neg h2, List.take_of_length_le (by omega)]

theorem atoi_num {s : List UInt8} {z : Int} (h : NumText s z) (h1 : -2147483648 ≤ z) (h2 : z ≤ 2147483647) : atoi s = some z := by
  cases h with
  | plain ds hd => exact atoi_digits hd (by omega)
  | plus ds hd =>
    have e2 : (0x2B :: ds : List UInt8).dropWhile isSpace = 0x2B :: ds := by rw [List.dropWhile_cons, if_neg (by decide)]
    unfold atoi
    dsimp only
    rw [e2]
    simp only [List.head?_cons, Option.some.injEq, (by decide : ¬ (0x2B : UInt8) = 0x2D), decide_true, Bool.or_true, if_true, if_false, List.drop_one, List.tail_cons]
    rw [takeWhile_digits hd, if_pos ⟨h1, h2⟩]
  | minus ds hd =>
    have e2 : (0x2D :: ds : List UInt8).dropWhile isSpace = 0x2D :: ds := by rw [List.dropWhile_cons, if_neg (by decide)]
    unfold atoi
    dsimp only
    rw [e2]
    simp only [List.head?_cons, decide_true, Bool.true_or, if_true, List.drop_one, List.tail_cons]
    rw [takeWhile_digits hd, if_pos ⟨h1, h2⟩]

theorem atLastComma_none {s : List UInt8} (h : (0x2C : UInt8) ∉ s) : atLastComma s = none := by
  unfold atLastComma; rw [if_neg h]

theorem atLastComma_some {f p : List UInt8} (h : (0x2C : UInt8) ∉ p) : atLastComma (f ++ 0x2C :: p) = some (f, p) := by
  unfold atLastComma
  rw [if_pos (by simp)]
  have e : (f ++ 0x2C :: p).reverse = p.reverse ++ 0x2C :: f.reverse := by simp
  have hp : ∀ c ∈ p.reverse, decide (c ≠ 0x2C) = true := by
    intro c hc
    have : c ∈ p := List.mem_reverse.1 hc
    simp only [ne_eq, decide_not, Bool.not_eq_true', decide_eq_false_iff_not]
    rintro rfl
    exact h this
  rw [e, List.dropWhile_append_of_pos hp, List.takeWhile_append_of_pos hp, List.dropWhile_cons, if_neg (by decide), List.takeWhile_cons, if_neg (by decide)]
  simp

theorem dropSlashes_spec {s d : List UInt8} {n : Nat} (hd : s = d ++ List.replicate n 0x2F) (h0 : d ≠ []) (h1 : d.getLast? = some 0x2F → d.length = 1) : dropSlashes s = d := by
  subst hd
  cases d with
  | nil => exact absurd rfl h0
  | cons c t =>
    rw [List.cons_append]
    unfold dropSlashes
    dsimp only
    congr 1
    rw [List.reverse_append, List.reverse_replicate, List.dropWhile_append_of_pos (by intro x hx; rw [List.eq_of_mem_replicate hx]; rfl)]
    have : t.reverse.dropWhile (fun x => decide (x = 0x2F)) = t.reverse := by
      cases ht : t.reverse with
      | nil => rfl
      | cons x u =>
        have ht' : t = u.reverse ++ [x] := by
          have := congrArg List.reverse ht
          simpa using this
        rw [List.dropWhile_cons, if_neg]
        intro hx
        have hx : x = 0x2F := by simpa using hx
        have hl := h1 (by rw [ht', hx, ← List.cons_append, List.getLast?_concat])
        rw [ht'] at hl
        simp at hl
    rw [this, List.reverse_reverse]

theorem clause_val (eof k e v : Cf) (r : List Cf) (c : SConf) (f : Cf → Option (SConf × Bool)) (he : e.kind = .eq) :
    clause eof ⟨k, e :: v :: r⟩ c f = (f v).map fun q => ⟨⟨v, r⟩, q.1, !q.2⟩ := by
  unfold clause
  rw [if_neg (by simp [Ps.next, he])]
  rfl

theorem stamp_val (eof k e v : Cf) (r : List Cf) (c : SConf) (he : e.kind = .eq) :
    setStamp eof ⟨k, e :: v :: r⟩ c = if v.kind ≠ .int then some ⟨⟨v, r⟩, c, true⟩ else (atoi v.text).bind fun n =>
      if n < 0 then some ⟨⟨v, r⟩, c, true⟩
      else (stampUnit n (Ps.next eof ⟨v, r⟩).last).map fun m =>
        if m < 0 then ⟨Ps.next eof ⟨v, r⟩, { c with stamp := 0 }, true⟩ else ⟨Ps.next eof ⟨v, r⟩, { c with stamp := m }, false⟩ := by
  unfold setStamp
  rw [if_neg (show ¬ (Ps.next eof ⟨k, e :: v :: r⟩).last.kind ≠ .eq by simp [Ps.next, he])]
  rfl

theorem onOff_flag (c : SConf) (v : Cf) (set : Bool → SConf) (b : Bool) (h : Flag v b) : onOff c v set = some (set b, true) := by
  unfold Flag at h
  unfold onOff
  cases b with
  | true => rw [if_pos (by rw [h]; rfl)]
  | false => rw [if_neg (by rw [h]; decide), if_pos (by rw [h]; rfl)]

theorem str_pos {v : Cf} {s : List UInt8} (h : Text v s) : ¬ v.kind ≠ .str := by simp [h.1]

theorem str_nonblank {v : Cf} {s : List UInt8} (h : Text v s) (hb : ¬ Blank s) : ¬ ((decide (v.kind ≠ .str) || isEmptyString v.text) = true) := by
  rw [h.2, not_empty hb]; simp [h.1]

theorem blank_true {s : List UInt8} (hb : Blank s) : isEmptyString s = true := (isEmptyString_iff s).2 hb

theorem sets_clause (env : CEnv) (a b : Bool) (eof k e : Cf) (r : List Cf) (c c' : SConf) (key : Key) (v : Cf) (he : e.kind = .eq)
    (h : Sets env a b c ⟨key, v, none⟩ c') : serverClause env eof a b ⟨k, e :: v :: r⟩ c key = some ⟨⟨v, r⟩, c', false⟩ := by
  cases h with
  | coreDump _ b h => unfold serverClause; dsimp only; rw [clause_val _ _ _ _ _ _ _ he, onOff_flag c v _ b h]; rfl
  | keepAlive _ b h => unfold serverClause; dsimp only; rw [clause_val _ _ _ _ _ _ _ he, onOff_flag c v _ b h]; rfl
  | loopBack _ b h => unfold serverClause; dsimp only; rw [clause_val _ _ _ _ _ _ _ he, onOff_flag c v _ b h]; rfl
  | tcpWrap _ b h hw => unfold serverClause; dsimp only; rw [if_neg (by simp [hw]), clause_val _ _ _ _ _ _ _ he, onOff_flag c v _ b h]; rfl
  | noCoreDumpDir _ s h hb =>
    unfold serverClause; dsimp only; rw [clause_val _ _ _ _ _ _ _ he]; unfold setCoreDumpDir
    rw [if_neg (str_pos h), h.2, if_pos (blank_true hb)]; rfl
  | coreDumpDir _ s d n h hb hk hf hd h0 h1 =>
    unfold serverClause; dsimp only; rw [clause_val _ _ _ _ _ _ _ he]; unfold setCoreDumpDir
    rw [if_neg (str_pos h), h.2, if_neg (by simp [not_empty hb]), hk, relName_fits hf]
    dsimp only
    rw [if_neg (by simp), dropSlashes_spec hd h0 h1]; rfl
  | noExecPath _ s h hb hl =>
    unfold serverClause; dsimp only; rw [clause_val _ _ _ _ _ _ _ he]; unfold setExecPath
    rw [if_neg (str_pos h), h.2, if_neg (by omega), if_pos (blank_true hb)]; rfl
  | execPath _ s h hb hl =>
    unfold serverClause; dsimp only; rw [clause_val _ _ _ _ _ _ _ he]; unfold setExecPath
    rw [if_neg (str_pos h), h.2, if_neg (by omega), if_neg (by simp [not_empty hb])]; rfl
  | noLogDir _ s h hb =>
    unfold serverClause; dsimp only; rw [clause_val _ _ _ _ _ _ _ he]; unfold setLogDir
    rw [if_neg (str_pos h), h.2, if_pos (blank_true hb)]; rfl
  | logDir _ s h hb hf =>
    unfold serverClause; dsimp only; rw [clause_val _ _ _ _ _ _ _ he]; unfold setLogDir
    rw [if_neg (str_pos h), h.2, if_neg (by simp [not_empty hb]), relName_fits hf]; rfl
  | logFile _ s h hb hf hc =>
    unfold serverClause; dsimp only; rw [clause_val _ _ _ _ _ _ _ he]; unfold setLogFile
    rw [if_neg (str_nonblank h hb), h.2, relName_fits hf, atLastComma_none hc]; rfl
  | logFilePriority _ s f p name n h hb hf hs hc h0 hw hp =>
    unfold serverClause; dsimp only; rw [clause_val _ _ _ _ _ _ _ he]; unfold setLogFile
    rw [if_neg (str_nonblank h hb), h.2, relName_fits hf, hs, atLastComma_some hc]
    dsimp only
    have : lookupPriority p = n := (C58_priority p h0 n).2 (Or.inl ⟨name, hw, hp⟩)
    have hn : 0 ≤ n := by cases hp <;> omega
    rw [this, if_neg (by omega)]; rfl
  | noFile _ z h =>
    unfold serverClause; dsimp only; rw [clause_val _ _ _ _ _ _ _ he]; unfold setNoFile
    rw [if_neg (by simp [h.1]), atoi_num h.2.1 h.2.2.1 h.2.2.2]; rfl
  | pidFile _ s h hb hf hp =>
    unfold serverClause; dsimp only; rw [clause_val _ _ _ _ _ _ _ he]; unfold setPidFile
    rw [if_neg (str_nonblank h hb), if_pos hp, h.2, relName_fits hf]; rfl
  | pidFileKept _ s h hb hp =>
    unfold serverClause; dsimp only; rw [clause_val _ _ _ _ _ _ _ he]; unfold setPidFile
    rw [if_neg (str_nonblank h hb), if_neg (by simp [hp])]; rfl
  | port _ z h hz hp =>
    unfold serverClause; dsimp only; rw [clause_val _ _ _ _ _ _ _ he]; unfold setPort
    rw [if_neg (by simp [h.1]), atoi_num h.2.1 h.2.2.1 h.2.2.2]
    dsimp only [Option.map_some]
    rw [if_neg (by omega), if_pos hp]; rfl
  | portKept _ z h hz hp =>
    unfold serverClause; dsimp only; rw [clause_val _ _ _ _ _ _ _ he]; unfold setPort
    rw [if_neg (by simp [h.1]), atoi_num h.2.1 h.2.2.1 h.2.2.2]
    dsimp only [Option.map_some]
    rw [if_neg (by omega), if_neg (by simp [hp])]; rfl
  | resetCmd _ s h hb =>
    unfold serverClause; dsimp only; rw [clause_val _ _ _ _ _ _ _ he]; unfold setResetCmd
    rw [if_neg (str_nonblank h hb), h.2]; rfl
  | syslog _ s name n h hb h0 hw hf =>
    unfold serverClause; dsimp only; rw [clause_val _ _ _ _ _ _ _ he]; unfold setSyslog
    have : lookupFacility s = 8 * (n : Int) := (C58_facility s h0 _).2 (Or.inl ⟨name, n, hw, hf, rfl⟩)
    rw [if_neg (str_nonblank h hb), h.2, this, if_neg (by omega)]; rfl

theorem stamp_clause (env : CEnv) (a b : Bool) (eof k e u : Cf) (r : List Cf) (c c' : SConf) (v : Cf) (he : e.kind = .eq)
    (h : Sets env a b c ⟨.timestamp, v, some u⟩ c') : serverClause env eof a b ⟨k, e :: v :: u :: r⟩ c .timestamp = some ⟨⟨u, r⟩, c', false⟩ := by
  cases h with
  | stamp _ _ z m w h hz hu hm hi =>
    unfold serverClause
    dsimp only
    rw [stamp_val _ _ _ _ _ _ he, if_neg (show ¬ v.kind ≠ .int by simp [h.1]), atoi_num h.2.1 h.2.2.1 h.2.2.2]
    dsimp only [Option.bind_some]
    rw [if_neg (show ¬ z < 0 by omega)]
    have hz2 : stampUnit z u = some (z * m) := by
      unfold stampUnit
      rw [if_neg (by simp [hu.1]), if_pos hu.1, hu.2]
      rcases hm with ⟨hw | hw, rfl⟩ | ⟨hw | hw, rfl⟩ | ⟨hw | hw, rfl⟩
      · subst hw; rw [if_neg (by decide), if_pos (by decide), Int.mul_one]
      · subst hw; rw [if_neg (by decide), if_pos (by decide), Int.mul_one]
      · subst hw
        rw [if_neg (by decide), if_neg (by decide), if_pos (by decide)]; unfold intMul; rw [if_neg (by omega)]
      · subst hw
        rw [if_neg (by decide), if_neg (by decide), if_pos (by decide)]; unfold intMul; rw [if_neg (by omega)]
      · subst hw
        rw [if_neg (by decide), if_neg (by decide), if_neg (by decide), if_pos (by decide)]; unfold intMul; rw [if_neg (by omega)]
      · subst hw
        rw [if_neg (by decide), if_neg (by decide), if_neg (by decide), if_pos (by decide)]; unfold intMul; rw [if_neg (by omega)]
    rw [show (Ps.next eof ⟨v, u :: r⟩) = ⟨u, r⟩ from rfl, hz2]
    dsimp only [Option.map_some]
    have hzm : ¬ z * m < 0 := by
      rcases hm with ⟨_, rfl⟩ | ⟨_, rfl⟩ | ⟨_, rfl⟩ <;> omega
    rw [if_neg hzm]

/-- The loop over settings in order, then what follows them. -/
theorem dirLoop_settings (env : CEnv) (a b : Bool) (eof : Cf) : ∀ (l : List Cf) (ss : List Setting), Writes l ss → ∀ (c c' : SConf), SetAll env a b c ss c' →
    ∀ (t : Cf) (r : List Cf) (n : Nat), (l ++ r).length < n →
      ∃ (t' : Cf) (m : Nat), r.length < m ∧ dirLoop eof (serverClause env eof a b) n ⟨t, l ++ r⟩ c = dirLoop eof (serverClause env eof a b) m ⟨t', r⟩ c' := by
  intro l ss hw
  induction hw with
  | nil =>
    intro c c' hs t r n hn
    cases hs
    exact ⟨t, n, hn, rfl⟩
  | set k e v key l ss hk ht he hw ih =>
    intro c c' hs t r n hn
    cases hs with
    | cons _ c1 _ _ _ h1 h2 =>
      cases n with
      | zero => omega
      | succ n =>
        obtain ⟨t', m, hm, hd⟩ := ih c1 c' h2 v r n (by simp only [List.cons_append, List.length_cons] at hn; omega)
        refine ⟨t', m, hm, ?_⟩
        rw [← hd]
        simp only [List.cons_append]
        rw [dirLoop]
        simp only [Ps.next, hk]
        rw [sets_clause env a b eof k e _ c c1 key v he h1]
        simp
  | stamp k e v u l ss hk he hw ih =>
    intro c c' hs t r n hn
    cases hs with
    | cons _ c1 _ _ _ h1 h2 =>
      cases n with
      | zero => omega
      | succ n =>
        obtain ⟨t', m, hm, hd⟩ := ih c1 c' h2 u r n (by simp only [List.cons_append, List.length_cons] at hn; omega)
        refine ⟨t', m, hm, ?_⟩
        rw [← hd]
        simp only [List.cons_append]
        rw [dirLoop]
        simp only [Ps.next, hk]
        rw [stamp_clause env a b eof k e u _ c c1 v he h1]
        simp

/-- Clauses of the form `KEY = VALUE` with a value that is refused. -/
theorem clause_bad (eof k e v : Cf) (r : List Cf) (c : SConf) (f : Cf → Option (SConf × Bool)) (he : e.kind = .eq) (hf : f v = some (c, false)) :
    clause eof ⟨k, e :: v :: r⟩ c f = some ⟨⟨v, r⟩, c, true⟩ := by
  rw [clause_val _ _ _ _ _ _ _ he, hf]; rfl

theorem onOff_bad (c : SConf) (v : Cf) (set : Bool → SConf) (h : ∀ b, ¬ Flag v b) : onOff c v set = some (c, false) := by
  unfold onOff
  rw [if_neg (show ¬ v.kind = .key .on from h true), if_neg (show ¬ v.kind = .key .off from h false)]

theorem str_bad {v : Cf} (h : v.kind ≠ .str ∨ Blank v.text) : (decide (v.kind ≠ .str) || isEmptyString v.text) = true := by
  rcases h with h | h
  · simp [h]
  · simp [blank_true h]

theorem bad_clause (env : CEnv) (a b : Bool) (eof k e v : Cf) (r : List Cf) (c : SConf) (key : Key) (he : e.kind = .eq) (h : BadValue env key v) :
    ∃ p, serverClause env eof a b ⟨k, e :: v :: r⟩ c key = some ⟨p, c, true⟩ ∧ (p = ⟨v, r⟩ ∨ p = ⟨k, e :: v :: r⟩) := by
  have st : ∀ key, key ∈ [Key.port, .timestamp] → ∀ z, Num v z → z < 0 → serverClause env eof a b ⟨k, e :: v :: r⟩ c key = some ⟨⟨v, r⟩, c, true⟩ := by
    intro key hk z hz h0
    simp only [List.mem_cons, List.not_mem_nil, or_false] at hk
    rcases hk with rfl | rfl
    · unfold serverClause; dsimp only
      refine clause_bad eof k e v r c _ he ?_
      unfold setPort
      rw [if_neg (by simp [hz.1]), atoi_num hz.2.1 hz.2.2.1 hz.2.2.2]
      dsimp only [Option.map_some]
      rw [if_pos h0]
    · unfold serverClause
      dsimp only
      rw [stamp_val _ _ _ _ _ _ he, if_neg (show ¬ v.kind ≠ .int by simp [hz.1]), atoi_num hz.2.1 hz.2.2.1 hz.2.2.2]
      dsimp only [Option.bind_some]
      rw [if_pos h0]
  cases h with
  | flag _ _ hk h =>
    simp only [List.mem_cons, List.not_mem_nil, or_false] at hk
    rcases hk with rfl | rfl | rfl | rfl
    · refine ⟨⟨v, r⟩, ?_, Or.inl rfl⟩; unfold serverClause; dsimp only; exact clause_bad eof k e v r c _ he (onOff_bad c v _ h)
    · refine ⟨⟨v, r⟩, ?_, Or.inl rfl⟩; unfold serverClause; dsimp only; exact clause_bad eof k e v r c _ he (onOff_bad c v _ h)
    · refine ⟨⟨v, r⟩, ?_, Or.inl rfl⟩; unfold serverClause; dsimp only; exact clause_bad eof k e v r c _ he (onOff_bad c v _ h)
    · unfold serverClause
      dsimp only
      by_cases hw : env.withWrap = false
      · rw [if_pos hw]; exact ⟨_, rfl, Or.inr rfl⟩
      · rw [if_neg hw]; exact ⟨_, clause_bad eof k e v r c _ he (onOff_bad c v _ h), Or.inl rfl⟩
  | text _ _ hk h =>
    refine ⟨_, ?_, Or.inl rfl⟩
    simp only [List.mem_cons, List.not_mem_nil, or_false] at hk
    rcases hk with rfl | rfl | rfl | rfl | rfl | rfl | rfl <;> unfold serverClause <;> dsimp only <;> refine clause_bad eof k e v r c _ he ?_
    · unfold setCoreDumpDir; rw [if_pos h]
    · unfold setExecPath; rw [if_pos h]
    · unfold setLogDir; rw [if_pos h]
    · unfold setLogFile; rw [if_pos (str_bad (Or.inl h))]
    · unfold setPidFile; rw [if_pos (str_bad (Or.inl h))]
    · unfold setResetCmd; rw [if_pos (str_bad (Or.inl h))]
    · unfold setSyslog; rw [if_pos (str_bad (Or.inl h))]
  | blank _ _ hk h =>
    refine ⟨_, ?_, Or.inl rfl⟩
    simp only [List.mem_cons, List.not_mem_nil, or_false] at hk
    rcases hk with rfl | rfl | rfl | rfl <;> unfold serverClause <;> dsimp only <;> refine clause_bad eof k e v r c _ he ?_
    · unfold setLogFile; rw [if_pos (str_bad (Or.inr h))]
    · unfold setPidFile; rw [if_pos (str_bad (Or.inr h))]
    · unfold setResetCmd; rw [if_pos (str_bad (Or.inr h))]
    · unfold setSyslog; rw [if_pos (str_bad (Or.inr h))]
  | num _ _ hk h =>
    refine ⟨_, ?_, Or.inl rfl⟩
    simp only [List.mem_cons, List.not_mem_nil, or_false] at hk
    rcases hk with rfl | rfl | rfl
    · unfold serverClause; dsimp only; refine clause_bad eof k e v r c _ he ?_
      unfold setNoFile; rw [if_pos h]
    · unfold serverClause; dsimp only; refine clause_bad eof k e v r c _ he ?_
      unfold setPort; rw [if_pos h]
    · unfold serverClause
      dsimp only
      rw [stamp_val _ _ _ _ _ _ he, if_pos h]
  | negative _ _ z hk h hz => exact ⟨_, st key hk z h hz, Or.inl rfl⟩
  | directory _ hb h =>
    refine ⟨_, ?_, Or.inl rfl⟩
    unfold serverClause; dsimp only; refine clause_bad eof k e v r c _ he ?_
    unfold setCoreDumpDir
    by_cases h1 : v.kind ≠ .str
    · rw [if_pos h1]
    · rw [if_neg h1, if_neg (by simp [not_empty hb])]
      match hk : env.fs.kind v.text with
      | none => rfl
      | some q =>
        dsimp only
        rw [if_pos (by rintro rfl; exact h hk)]
  | facility _ h0 h =>
    refine ⟨_, ?_, Or.inl rfl⟩
    unfold serverClause; dsimp only; refine clause_bad eof k e v r c _ he ?_
    unfold setSyslog
    by_cases h1 : (decide (v.kind ≠ .str) || isEmptyString v.text) = true
    · rw [if_pos h1]
    · have : lookupFacility v.text = -1 := (C58_facility v.text h0 _).2 (Or.inr ⟨rfl, fun ⟨name, n, hw, hf⟩ => h name n hw hf⟩)
      rw [if_neg h1, this, if_pos (by decide)]

/-- Clauses whose next token is not `=`. -/
theorem noEq_clause (env : CEnv) (a b : Bool) (eof : Cf) (p : Ps) (c : SConf) (key : Key) (h : (p.next eof).last.kind ≠ .eq) :
    ∃ q, serverClause env eof a b p c key = some ⟨q, c, true⟩ ∧ (q = p ∨ q = p.next eof) := by
  have hc : ∀ f, clause eof p c f = some ⟨p.next eof, c, true⟩ := fun f => by unfold clause; rw [if_pos h]
  cases key with
  | tcpwrappers =>
    unfold serverClause
    dsimp only
    split
    · exact ⟨_, rfl, Or.inl rfl⟩
    · exact ⟨_, hc _, Or.inr rfl⟩
  | timestamp => exact ⟨_, by unfold serverClause setStamp; dsimp only; rw [if_pos h], Or.inr rfl⟩
  | coredump => exact ⟨_, by unfold serverClause; dsimp only; exact hc _, Or.inr rfl⟩
  | coredumpdir => exact ⟨_, by unfold serverClause; dsimp only; exact hc _, Or.inr rfl⟩
  | execpath => exact ⟨_, by unfold serverClause; dsimp only; exact hc _, Or.inr rfl⟩
  | keepalive => exact ⟨_, by unfold serverClause; dsimp only; exact hc _, Or.inr rfl⟩
  | logdir => exact ⟨_, by unfold serverClause; dsimp only; exact hc _, Or.inr rfl⟩
  | logfile => exact ⟨_, by unfold serverClause; dsimp only; exact hc _, Or.inr rfl⟩
  | loopback => exact ⟨_, by unfold serverClause; dsimp only; exact hc _, Or.inr rfl⟩
  | nofile => exact ⟨_, by unfold serverClause; dsimp only; exact hc _, Or.inr rfl⟩
  | pidfile => exact ⟨_, by unfold serverClause; dsimp only; exact hc _, Or.inr rfl⟩
  | port => exact ⟨_, by unfold serverClause; dsimp only; exact hc _, Or.inr rfl⟩
  | resetcmd => exact ⟨_, by unfold serverClause; dsimp only; exact hc _, Or.inr rfl⟩
  | syslog => exact ⟨_, by unfold serverClause; dsimp only; exact hc _, Or.inr rfl⟩
  | _ => exact ⟨_, rfl, Or.inl rfl⟩

theorem wrongKey_clause (env : CEnv) (a b : Bool) (eof : Cf) (p : Ps) (c : SConf) (key : Key) (h : key ∉ serverKeys) :
    serverClause env eof a b p c key = some ⟨p, c, true⟩ := by
  cases key with
  | console => rfl
  | dev => rfl
  | global => rfl
  | ipmiopts => rfl
  | log => rfl
  | logopts => rfl
  | name => rfl
  | off => rfl
  | on => rfl
  | seropts => rfl
  | server => rfl
  | testopts => rfl
  | _ => exact absurd (by decide) h

/-- A missing value. -/
theorem noValue_clause (env : CEnv) (a b : Bool) (eof k e : Cf) (c : SConf) (key : Key) (he : e.kind = .eq) (hf : eof.kind = .eof) :
    ∃ q, serverClause env eof a b ⟨k, [e]⟩ c key = some ⟨q, c, true⟩ ∧ (q = ⟨k, [e]⟩ ∨ q = ⟨eof, []⟩) := by
  have hkind : eof.kind = .eol ∨ eof.kind = .eof := Or.inr hf
  have hc : ∀ f : Cf → Option (SConf × Bool), f eof = some (c, false) → clause eof ⟨k, [e]⟩ c f = some ⟨⟨eof, []⟩, c, true⟩ := by
    intro f h
    unfold clause
    rw [if_neg (by simp [Ps.next, he])]
    simp only [Ps.next]
    rw [h]; rfl
  have K := not_kind hkind
  cases key with
  | tcpwrappers =>
    unfold serverClause
    dsimp only
    split
    · exact ⟨_, rfl, Or.inl rfl⟩
    · exact ⟨_, hc _ (onOff_end c _ eof hkind), Or.inr rfl⟩
  | timestamp =>
    refine ⟨⟨eof, []⟩, ?_, Or.inr rfl⟩
    unfold serverClause setStamp; dsimp only
    rw [if_neg (show ¬ (Ps.next eof ⟨k, [e]⟩).last.kind ≠ .eq by simp [Ps.next, he])]
    exact if_pos K.2
  | coredump => exact ⟨_, by unfold serverClause; dsimp only; exact hc _ (onOff_end c _ eof hkind), Or.inr rfl⟩
  | coredumpdir => exact ⟨_, by unfold serverClause; dsimp only; exact hc _ (by unfold setCoreDumpDir; rw [if_pos K.1]), Or.inr rfl⟩
  | execpath => exact ⟨_, by unfold serverClause; dsimp only; exact hc _ (by unfold setExecPath; rw [if_pos K.1]), Or.inr rfl⟩
  | keepalive => exact ⟨_, by unfold serverClause; dsimp only; exact hc _ (onOff_end c _ eof hkind), Or.inr rfl⟩
  | logdir => exact ⟨_, by unfold serverClause; dsimp only; exact hc _ (by unfold setLogDir; rw [if_pos K.1]), Or.inr rfl⟩
  | logfile => exact ⟨_, by unfold serverClause; dsimp only; exact hc _ (by unfold setLogFile; rw [if_pos (str_bad (Or.inl K.1))]), Or.inr rfl⟩
  | loopback => exact ⟨_, by unfold serverClause; dsimp only; exact hc _ (onOff_end c _ eof hkind), Or.inr rfl⟩
  | nofile => exact ⟨_, by unfold serverClause; dsimp only; exact hc _ (by unfold setNoFile; rw [if_pos K.2]), Or.inr rfl⟩
  | pidfile => exact ⟨_, by unfold serverClause; dsimp only; exact hc _ (by unfold setPidFile; rw [if_pos (str_bad (Or.inl K.1))]), Or.inr rfl⟩
  | port => exact ⟨_, by unfold serverClause; dsimp only; exact hc _ (by unfold setPort; rw [if_pos K.2]), Or.inr rfl⟩
  | resetcmd => exact ⟨_, by unfold serverClause; dsimp only; exact hc _ (by unfold setResetCmd; rw [if_pos (str_bad (Or.inl K.1))]), Or.inr rfl⟩
  | syslog => exact ⟨_, by unfold serverClause; dsimp only; exact hc _ (by unfold setSyslog; rw [if_pos (str_bad (Or.inl K.1))]), Or.inr rfl⟩
  | _ => exact ⟨_, rfl, Or.inl rfl⟩

end Conman
