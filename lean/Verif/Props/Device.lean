import Verif.Lemma.Device

/-
Properties C57 (telnet devices) and C70 (kinds of devices).
-/
namespace Conman
open Spec (sameName digit TelnetForm PrefixForm inDir Fits PathOf foundIn ProgramFile Reading rank)

theorem isProcessDev_iff {fs : Fs} (h0 : fs.kind [] = none) {cwd dev f : List UInt8} {path : Option (List UInt8)} :
    isProcessDev fs cwd path dev = some f ↔ ProgramFile fs cwd path dev f ∧ fs.kind f = some .regular ∧ fs.exec f = true := by
  have tail : ∀ o : Option (List UInt8), (o.bind fun d => if fs.kind d ≠ some FileKind.regular then none else if fs.exec d = false then none else some d) = some f ↔
      o = some f ∧ fs.kind f = some .regular ∧ fs.exec f = true := by
    intro o
    cases o with
    | none => simp
    | some d =>
      rw [Option.bind_some]
      constructor
      · intro h
        split at h
        · exact absurd h (by simp)
        · split at h
          · exact absurd h (by simp)
          · rename_i c1 c2
            rw [Option.some.injEq] at h
            subst h
            exact ⟨rfl, Classical.not_not.1 c1, by simpa using c2⟩
      · rintro ⟨h1, h2, h3⟩
        rw [Option.some.injEq] at h1
        subst h1
        rw [if_neg (by simpa using h2), if_neg (by rw [h3]; simp)]
  unfold isProcessDev
  rw [tail]
  refine and_congr_left fun _ => ?_
  -- the lookup
  have look : ∀ p ds, PathOf ds p → execLoop fs dev [] p = foundIn fs dev ds := by
    intro p ds h
    rw [execLoop_spec h0 dev h []]
    cases h <;> simp
  have rel : (absName cwd dev = some f ↔ Fits cwd dev ∧ f = inDir cwd dev) := absName_some
  by_cases hs : (0x2F : UInt8) ∈ dev
  · rw [if_pos hs]
    dsimp only
    rw [rel]
    constructor
    · rintro ⟨h1, rfl⟩; exact .relative (fun _ _ g => absurd hs g) h1
    · intro h
      cases h with
      | found _ _ _ g => exact absurd hs g
      | relative _ g => exact ⟨g, rfl⟩
  · rw [if_neg hs]
    unfold searchExec
    cases path with
    | none =>
      dsimp only
      rw [rel]
      constructor
      · rintro ⟨h1, rfl⟩; exact .relative (fun _ _ _ g => absurd g (by simp)) h1
      · intro h
        cases h with
        | found _ _ _ _ g => exact absurd g (by simp)
        | relative _ g => exact ⟨g, rfl⟩
    | some p =>
      dsimp only
      by_cases hl : p.length ≥ 4096
      · rw [if_pos hl]
        dsimp only
        rw [rel]
        constructor
        · rintro ⟨h1, rfl⟩
          refine .relative (fun q _ _ g g2 => ?_) h1
          rw [Option.some.injEq] at g; subst g; omega
        · intro h
          cases h with
          | found q _ _ _ g g2 => rw [Option.some.injEq] at g; subst g; omega
          | relative _ g => exact ⟨g, rfl⟩
      · rw [if_neg hl]
        obtain ⟨ds, hd⟩ := pathOf_exists p
        rw [look p ds hd]
        constructor
        · intro h
          cases hf : foundIn fs dev ds with
          | some g =>
            rw [hf] at h
            dsimp only at h
            rw [Option.some.injEq] at h
            subst h
            exact .found p _ ds hs rfl (by omega) hd hf
          | none =>
            rw [hf] at h
            dsimp only at h
            obtain ⟨h1, rfl⟩ := rel.1 h
            refine .relative (fun q es _ g _ g3 => ?_) h1
            rw [Option.some.injEq] at g; subst g
            rw [← look p es g3, look p ds hd, hf]
        · intro h
          cases h with
          | found q _ es _ g g2 g3 g4 =>
            rw [Option.some.injEq] at g; subst g
            rw [← look p ds hd, look p es g3, g4]
          | relative g g2 =>
            rw [g p ds hs rfl (by omega) hd]
            exact rel.2 ⟨g2, rfl⟩

/-- **C57.** A device is taken as telnet exactly if it has less than 1024 bytes, is `host:port` with digits for a port, and is not the name of a socket (`unix:`);
host and number are those written. -/
theorem C57_telnet (fs : Fs) (cwd : List UInt8) (path : Option (List UInt8)) (dev host : List UInt8) (n : Int) (hd : (0 : UInt8) ∉ dev) :
    devKind fs cwd path dev = some (.telnet host n) ↔ (¬ ∃ rest, PrefixForm (bs "unix") dev rest ∧ Fits cwd rest) ∧ dev.length < 1024 ∧
      ∃ port, TelnetForm dev host port ∧ n = digitsVal port ∧ digitsVal port ≤ 2147483647 := by
  unfold devKind
  constructor
  · intro h
    cases hu : isUnixDev cwd dev with
    | some p => rw [hu] at h; exact absurd h (by simp)
    | none =>
      rw [hu] at h
      dsimp only at h
      refine ⟨?_, ?_⟩
      · rintro ⟨rest, h1, h2⟩
        rw [(isUnixDev_iff hd).2 ⟨rest, h1, h2, rfl⟩] at hu
        exact absurd hu (by simp)
      · by_cases hf : dev.length ≥ 1024 ∨ ¬ ∃ host port, TelnetForm dev host port
        · rw [isTelnetDev_not hf, Option.map_some, Option.some.injEq] at h
          exfalso
          dsimp only at h
          split at h
          · exact absurd h (by simp)
          · split at h
            · exact absurd h (by simp)
            · split at h
              · exact absurd h (by simp)
              · split at h <;> exact absurd h (by simp)
        · rw [not_or, Classical.not_not] at hf
          obtain ⟨hl, host', port, hf⟩ := hf
          rw [isTelnetDev_form (by omega) hf] at h
          refine ⟨by omega, port, ?_⟩
          by_cases hv : digitsVal port ≤ 2147483647
          · rw [atoi_digits hf.2.2.2 hv] at h
            simp only [Option.map_some, Option.some.injEq, Dev.telnet.injEq] at h
            rw [← h.1]
            exact ⟨hf, h.2.symm, hv⟩
          · rw [atoi_digits_big hf.2.2.2 (by omega)] at h
            exact absurd h (by simp)
  · rintro ⟨h1, h2, port, h3, h4, h5⟩
    have hu : isUnixDev cwd dev = none := by
      cases hu : isUnixDev cwd dev with
      | none => rfl
      | some p =>
        obtain ⟨rest, g1, g2, _⟩ := (isUnixDev_iff hd).1 hu
        exact absurd ⟨rest, g1, g2⟩ h1
    rw [hu]
    dsimp only
    rw [isTelnetDev_form h2 h3, atoi_digits h3.2.2.2 h5, h4]
    rfl

/-- **C57, in part.** A connection is made to the port written, if that is a port number, and refused for port 0. -/
theorem C57_port_partial (n : Int) (h0 : 0 ≤ n) (h : n < 65536) : telnetPort n = if n = 0 then none else some n := by
  unfold telnetPort
  by_cases hn : n = 0
  · rw [if_pos (by omega), if_pos hn]
  · rw [if_neg (by omega), if_neg hn, Int.emod_eq_of_lt h0 h]

/-- **C57, finding.** Other numbers are accepted and taken modulo 65536: `host:65559` connects to port 23, `host:65536` to port 0. -/
theorem C57_port_wraps (n : Int) (h : 65536 ≤ n) : telnetPort n = some (n % 65536) ∧ n % 65536 ≠ n := by
  have := Int.emod_lt_of_pos n (show (0 : Int) < 65536 by omega)
  exact ⟨by unfold telnetPort; rw [if_neg (by omega)], by omega⟩

/-- **C57, finding.** The host may be empty. -/
theorem C57_empty_host (fs : Fs) (cwd : List UInt8) (path : Option (List UInt8)) : devKind fs cwd path (bs ":23") = some (.telnet [] 23) := by
  rw [C57_telnet _ _ _ _ _ _ (by decide)]
  refine ⟨?_, by decide, bs "23", ⟨rfl, by decide, by decide, by decide⟩, by decide, by decide⟩
  rintro ⟨rest, ⟨_, w, hw, e⟩, _⟩
  have hl := sameName_length hw
  have := congrArg List.length e
  rw [List.length_append, List.length_cons, hl] at this
  have h3 : (bs ":23").length = 3 := rfl
  have h4 : (bs "unix").length = 4 := rfl
  omega

/-- **C57, finding.** The conversion of larger numbers is undefined. -/
theorem C57_port_overflow (fs : Fs) (cwd : List UInt8) (path : Option (List UInt8)) (dev host port : List UInt8) (hd : (0 : UInt8) ∉ dev)
    (h1 : ¬ ∃ rest, PrefixForm (bs "unix") dev rest ∧ Fits cwd rest) (h2 : dev.length < 1024) (h3 : TelnetForm dev host port) (h4 : digitsVal port > 2147483647) :
    devKind fs cwd path dev = none := by
  have hu : isUnixDev cwd dev = none := by
    cases hu : isUnixDev cwd dev with
    | none => rfl
    | some p =>
      obtain ⟨rest, g1, g2, _⟩ := (isUnixDev_iff hd).1 hu
      exact absurd ⟨rest, g1, g2⟩ h1
  unfold devKind
  rw [hu]
  dsimp only
  rw [isTelnetDev_form h2 h3, atoi_digits_big h3.2.2.2 h4]
  rfl

/-- **C70.** The device is one of the possible readings of the string, and there is none of a kind tried before it. -/
theorem C70_first_reading (fs : Fs) (cwd : List UInt8) (path : Option (List UInt8)) (dev : List UInt8) (d : Dev) (h0 : fs.kind [] = none) (hd : (0 : UInt8) ∉ dev) (h : devKind fs cwd path dev = some d) :
    Reading fs cwd path dev d ∧ ∀ e, Reading fs cwd path dev e → rank d ≤ rank e := by
  unfold devKind at h
  have hun : ∀ p, Reading fs cwd path dev (.unixsock p) → isUnixDev cwd dev = some p := by
    intro p hr
    cases hr with
    | unixsock rest g1 g2 => exact (isUnixDev_iff hd).2 ⟨rest, g1, g2, rfl⟩
  cases hu : isUnixDev cwd dev with
  | some p =>
    rw [hu] at h
    dsimp only at h
    rw [Option.some.injEq] at h
    subst h
    obtain ⟨rest, g1, g2, rfl⟩ := (isUnixDev_iff hd).1 hu
    exact ⟨.unixsock rest g1 g2, fun _ _ => Nat.zero_le _⟩
  | none =>
    rw [hu] at h
    dsimp only at h
    have nun : ∀ p, ¬ Reading fs cwd path dev (.unixsock p) := fun p hr => by
      have := hun p hr
      rw [hu] at this; exact absurd this (by simp)
    by_cases hf : dev.length ≥ 1024 ∨ ¬ ∃ host port, TelnetForm dev host port
    · have ntel : ∀ a b, ¬ Reading fs cwd path dev (.telnet a b) := by
        intro a b hr
        cases hr with
        | telnet _ port _ g1 g2 =>
          rcases hf with hf | hf
          · omega
          · exact hf ⟨a, port, g2⟩
      rw [isTelnetDev_not hf, Option.map_some, Option.some.injEq] at h
      dsimp only at h
      cases hs : isSerialDev fs cwd dev with
      | some p =>
        rw [hs] at h
        dsimp only at h
        subst h
        unfold isSerialDev at hs
        rw [Option.bind_eq_some_iff] at hs
        obtain ⟨q, g1, g2⟩ := hs
        obtain ⟨g3, rfl⟩ := absName_some.1 g1
        split at g2
        · rename_i g4
          rw [Option.some.injEq] at g2
          subst g2
          refine ⟨.serial g3 g4, fun e he => ?_⟩
          cases e with
          | unixsock p => exact absurd he (nun p)
          | telnet a b => exact absurd he (ntel a b)
          | _ => simp [rank]
        · exact absurd g2 (by simp)
      | none =>
        rw [hs] at h
        dsimp only at h
        have nser : ∀ p, ¬ Reading fs cwd path dev (.serial p) := by
          intro p hr
          cases hr with
          | serial g1 g2 =>
            unfold isSerialDev at hs
            rw [absName_some.2 ⟨g1, rfl⟩, Option.bind_some, if_pos g2] at hs
            exact absurd hs (by simp)
        cases hp : isProcessDev fs cwd path dev with
        | some f =>
          rw [hp] at h
          dsimp only at h
          subst h
          obtain ⟨g1, g2, g3⟩ := (isProcessDev_iff h0).1 hp
          refine ⟨.process f g1 g2 g3, fun e he => ?_⟩
          cases e with
          | unixsock p => exact absurd he (nun p)
          | telnet a b => exact absurd he (ntel a b)
          | serial p => exact absurd he (nser p)
          | _ => simp [rank]
        | none =>
          rw [hp] at h
          dsimp only at h
          have nproc : ∀ p, ¬ Reading fs cwd path dev (.process p) := by
            intro p hr
            cases hr with
            | process _ g1 g2 g3 =>
              rw [(isProcessDev_iff h0).2 ⟨g1, g2, g3⟩] at hp
              exact absurd hp (by simp)
          cases hi : isIpmiDev dev with
          | some q =>
            rw [hi] at h
            dsimp only at h
            subst h
            refine ⟨.ipmi q ((isIpmiDev_iff hd).1 hi), fun e he => ?_⟩
            cases e with
            | unixsock p => exact absurd he (nun p)
            | telnet a b => exact absurd he (ntel a b)
            | serial p => exact absurd he (nser p)
            | process p => exact absurd he (nproc p)
            | _ => simp [rank]
          | none =>
            rw [hi] at h
            dsimp only at h
            have nip : ∀ p, ¬ Reading fs cwd path dev (.ipmi p) := by
              intro p hr
              cases hr with
              | ipmi _ g =>
                rw [(isIpmiDev_iff hd).2 g] at hi
                exact absurd hi (by simp)
            have ht := (strcasecmp_spec dev (bs "test:") hd (by decide)).2.1
            by_cases c : strcasecmp dev (bs "test:") = 0
            · rw [if_pos c] at h
              subst h
              refine ⟨.test (ht.1 c), fun e he => ?_⟩
              cases e with
              | unixsock p => exact absurd he (nun p)
              | telnet a b => exact absurd he (ntel a b)
              | serial p => exact absurd he (nser p)
              | process p => exact absurd he (nproc p)
              | ipmi p => exact absurd he (nip p)
              | _ => simp [rank]
            · rw [if_neg c] at h
              subst h
              refine ⟨.unknown, fun e he => ?_⟩
              cases e with
              | unixsock p => exact absurd he (nun p)
              | telnet a b => exact absurd he (ntel a b)
              | serial p => exact absurd he (nser p)
              | process p => exact absurd he (nproc p)
              | ipmi p => exact absurd he (nip p)
              | test =>
                cases he with
                | test g => exact absurd (ht.2 g) c
              | unknown => exact Nat.le_refl _
    · rw [not_or, Classical.not_not] at hf
      obtain ⟨hl, host, port, hf⟩ := hf
      rw [isTelnetDev_form (by omega) hf] at h
      by_cases hv : digitsVal port ≤ 2147483647
      · rw [atoi_digits hf.2.2.2 hv] at h
        simp only [Option.map_some, Option.some.injEq] at h
        subst h
        refine ⟨.telnet host port _ (by omega) hf rfl, fun e he => ?_⟩
        cases e with
        | unixsock p => exact absurd he (nun p)
        | _ => simp [rank]
      · rw [atoi_digits_big hf.2.2.2 (by omega)] at h
        exact absurd h (by simp)

/-- **C70.** There is only one reading of each kind. -/
theorem C70_reading_unique (fs : Fs) (cwd : List UInt8) (path : Option (List UInt8)) (dev : List UInt8) (d e : Dev) (h0 : fs.kind [] = none) (hz : (0 : UInt8) ∉ dev)
    (hd : Reading fs cwd path dev d) (he : Reading fs cwd path dev e) (h : rank d = rank e) : d = e := by
  cases hd with
  | unixsock rest g1 g2 =>
    cases he with
    | unixsock rest' g1' g2' =>
      have e1 := (isUnixDev_iff (cwd := cwd) hz).2 ⟨rest, g1, g2, rfl⟩
      have e2 := (isUnixDev_iff (cwd := cwd) hz).2 ⟨rest', g1', g2', rfl⟩
      rw [e1, Option.some.injEq] at e2
      rw [e2]
    | _ => simp [rank] at h
  | telnet host port n g1 g2 g3 =>
    cases he with
    | telnet host' port' n' g1' g2' g3' =>
      have := colon_unique (g2.1.symm.trans g2'.1) g2.2.1 g2'.2.1
      rw [g3, g3', this.1, this.2]
    | _ => simp [rank] at h
  | serial g1 g2 =>
    cases he with
    | serial => rfl
    | _ => simp [rank] at h
  | process f g1 g2 g3 =>
    cases he with
    | process f' g1' g2' g3' =>
      have e1 := (isProcessDev_iff h0).2 ⟨g1, g2, g3⟩
      have e2 := (isProcessDev_iff h0).2 ⟨g1', g2', g3'⟩
      rw [e1, Option.some.injEq] at e2
      rw [e2]
    | _ => simp [rank] at h
  | ipmi q g =>
    cases he with
    | ipmi q' g' =>
      have e1 := (isIpmiDev_iff hz).2 g
      have e2 := (isIpmiDev_iff hz).2 g'
      rw [e1, Option.some.injEq] at e2
      rw [e2]
    | _ => simp [rank] at h
  | test =>
    cases he with
    | test => rfl
    | _ => simp [rank] at h
  | unknown =>
    cases he with
    | unknown => rfl
    | _ => simp [rank] at h

/-- **C70.** The device found is defined if no port number overflows. -/
theorem C70_total (fs : Fs) (cwd : List UInt8) (path : Option (List UInt8)) (dev : List UInt8) (h : ∀ host port, TelnetForm dev host port → digitsVal port ≤ 2147483647) :
    ∃ d, devKind fs cwd path dev = some d := by
  unfold devKind
  split
  · exact ⟨_, rfl⟩
  · by_cases hf : dev.length ≥ 1024 ∨ ¬ ∃ host port, TelnetForm dev host port
    · rw [isTelnetDev_not hf]; exact ⟨_, rfl⟩
    · rw [not_or, Classical.not_not] at hf
      obtain ⟨hl, host, port, hf⟩ := hf
      rw [isTelnetDev_form (by omega) hf, atoi_digits hf.2.2.2 (h host port hf)]
      exact ⟨_, rfl⟩

/-- **C70, finding.** An IPMI host written as a number is taken as a telnet port: `ipmi:123` is port 123 of the host `ipmi`. -/
theorem C70_ipmi_number (fs : Fs) (cwd : List UInt8) (path : Option (List UInt8)) (port : List UInt8) (h : port ≠ []) (hd : ∀ c ∈ port, digit c)
    (hv : digitsVal port ≤ 2147483647) (hl : port.length < 1019) :
    PrefixForm (bs "ipmi") (bs "ipmi:" ++ port) port ∧ devKind fs cwd path (bs "ipmi:" ++ port) = some (.telnet (bs "ipmi") (digitsVal port)) := by
  have hz : (0 : UInt8) ∉ bs "ipmi:" ++ port := by
    simp only [List.mem_append, not_or]
    refine ⟨by decide, fun g => absurd (hd 0 g) (by decide)⟩
  refine ⟨⟨h, bs "ipmi", rfl, rfl⟩, (C57_telnet _ _ _ _ _ _ hz).2 ⟨?_, ?_, port, ⟨rfl, by decide, h, hd⟩, rfl, hv⟩⟩
  · rintro ⟨rest, ⟨_, w, hw, e⟩, _⟩
    have hc : (0x3A : UInt8) ∉ w := by
      intro g
      have : (0x3A : UInt8) ∈ w.map Spec.downcase := List.mem_map.2 ⟨_, g, by decide⟩
      rw [show w.map Spec.downcase = (bs "unix").map Spec.downcase from hw] at this
      revert this; decide
    have := (colon_unique (a := bs "ipmi") (b := port) e (by decide) hc).1
    rw [← this] at hw
    revert hw; decide
  · have : (bs "ipmi:").length = 5 := rfl
    rw [List.length_append]; omega

/-- **C70, finding.** A directory found under the name of a program hides the program in the directories after it, and in the working directory. -/
theorem C70_directory_hides (fs : Fs) (cwd dev p d : List UInt8) (ds : List (List UInt8)) (h0 : fs.kind [] = none) (hs : (0x2F : UInt8) ∉ dev) (hl : p.length < 4096) (hp : PathOf (d :: ds) p)
    (hdir : fs.kind d = some .directory) (hlen : (d ++ 0x2F :: dev).length < 4096) (hx : fs.exec (d ++ 0x2F :: dev) = true) (hk : fs.kind (d ++ 0x2F :: dev) = some .directory) (f : List UInt8) :
    ¬ devKind fs cwd (some p) dev = some (.process f) := by
  intro h
  unfold devKind at h
  split at h
  · exact absurd h (by simp)
  · rw [Option.map_eq_some_iff] at h
    obtain ⟨r, _, h⟩ := h
    split at h
    · exact absurd h (by simp)
    · split at h
      · exact absurd h (by simp)
      · split at h
        · rename_i q hq
          rw [isProcessDev_iff h0] at hq
          obtain ⟨g1, g2, _⟩ := hq
          have hf : foundIn fs dev (d :: ds) = some (d ++ 0x2F :: dev) := by
            rw [foundIn_cons, tryDir_eq]
            simp only [hdir, hlen, hx, decide_true, Bool.and_self, if_true]
          cases g1 with
          | found p' _ ds' _ e1 _ e3 e4 =>
            rw [Option.some.injEq] at e1; subst e1
            have : foundIn fs dev (d :: ds) = foundIn fs dev ds' := by
              have a1 := execLoop_spec h0 dev hp []
              have a2 := execLoop_spec h0 dev e3 []
              rw [a1] at a2
              cases e3 <;> simpa using a2
            rw [hf, e4, Option.some.injEq] at this
            rw [← this, hk] at g2
            exact absurd g2 (by simp)
          | relative hn _ =>
            rw [hn p (d :: ds) hs rfl hl hp] at hf
            exact absurd hf (by simp)
        · split at h
          · exact absurd h (by simp)
          · split at h <;> exact absurd h (by simp)

/-- A file system for the cases: two directories, of which the second has a program, and a device. -/
def exFs : Fs where
  kind p := if p = bs "/a" ∨ p = bs "/b" then some .directory else if p = bs "/b/con" ∨ p = bs "/w/x" then some .regular else if p = bs "/dev/tty" then some .charDev else none
  exec p := p = bs "/b/con" ∨ p = bs "/w/x"

/-- C57 and C70 on cases. -/
example : devKind exFs (bs "/w") (some (bs "/a:/b")) (bs "con") = some (.process (bs "/b/con")) ∧
    devKind exFs (bs "/w") (some (bs "/a:/b")) (bs "./x") = some .unknown ∧
    devKind exFs (bs "/w") none (bs "x") = some (.process (bs "/w/x")) ∧
    devKind exFs (bs "/w") none (bs "/dev/tty") = some (.serial (bs "/dev/tty")) ∧
    devKind exFs (bs "/w") none (bs "ts1:2001") = some (.telnet (bs "ts1") 2001) ∧
    devKind exFs (bs "/w") none (bs "UNIX:s") = some (.unixsock (bs "/w/s")) ∧
    devKind exFs (bs "/w") none (bs "ipmi:n1") = some (.ipmi (bs "n1")) ∧
    devKind exFs (bs "/w") none (bs "Test:") = some .test ∧
    devKind exFs (bs "/w") none (bs "ts1:") = some .unknown := by decide +kernel

example : exFs.kind [] = none ∧ telnetPort 65559 = some 23 ∧ PathOf [bs "/a", bs "/b"] (bs "/a:/b") ∧ foundIn exFs (bs "con") [bs "/a", bs "/b"] = some (bs "/b/con") :=
  ⟨by decide, by decide, .cons (bs "/a") (bs "/b") [bs "/b"] (by decide) (.one _ (by decide)), by decide +kernel⟩

/-- C70_directory_hides on a case. -/
example : ∃ fs : Fs, fs.kind [] = none ∧ fs.kind (bs "/a") = some .directory ∧ fs.kind (bs "/a/con") = some .directory ∧ fs.exec (bs "/a/con") = true ∧
    fs.kind (bs "/w/con") = some .regular ∧ fs.exec (bs "/w/con") = true :=
  ⟨⟨fun p => if p = bs "/a" ∨ p = bs "/a/con" then some .directory else if p = bs "/w/con" then some .regular else none, fun _ => true⟩, by decide, by decide, by decide, by decide, by decide, by decide⟩

end Conman
