import Verif.Spec.Rotate
import Verif.Lemma.Disk

/-! The parts of a log file that is renamed and opened again. -/
namespace Conman
open Spec

theorem fm_congr {α β : Type} (L : List α) (f g : α → List β) (h : ∀ y ∈ L, f y = g y) : L.flatMap f = L.flatMap g := by
  induction L with
  | nil => rfl
  | cons a L ih => rw [List.flatMap_cons, List.flatMap_cons, h a (List.mem_cons_self ..), ih fun y hy => h y (List.mem_cons_of_mem _ hy)]

structure RotInv (nm : List UInt8) (l : Nat) (base : List UInt8) (fam : List (List UInt8)) (d : Disk) : Prop where
  fin : FInv d.w
  ok : d.fs.Ok
  files : ∀ m j, d.file m = some j → j < d.fs.next
  uniq : ∀ y ∈ fam ++ [nm], oneName d.fs y
  nodup : (fam ++ [nm]).Nodup
  isLog : (d.w.obj l).kind = .logfile ∧ l ∈ d.w.live
  fd : (d.w.obj l).fd = true → ∃ i, d.file l = some i
  mine : ∀ i, d.file l = some i → ∃ pre z post, fam ++ [nm] = pre ++ z :: post ∧ d.fs.ino z = some i ∧ ∀ y ∈ post, d.fs.ino y = none
  others : ∀ m, m ≠ l → ∀ j, d.file m = some j → ∀ y ∈ fam ++ [nm], d.fs.ino y ≠ some j
  tr : ∀ m, d.trunc m = false
  data : (fam ++ [nm]).flatMap (fileAt d.fs) = base ++ sentTo l d.w.fx

theorem fileAt_congr {f g : LDir} {y : List UInt8} (hi : g.ino y = f.ino y) (hd : ∀ i, f.ino y = some i → g.data i = f.data i) : fileAt g y = fileAt f y := by
  unfold fileAt
  rw [hi]
  cases h : f.ino y with
  | none => rfl
  | some i => exact hd i h

/-- What a step writes gets into the last part that there is. -/
theorem take_rot {nm : List UInt8} {l : Nat} {base : List UInt8} {fam : List (List UInt8)} {e : Disk} {w' : World} {x : List Fx}
    (fin : FInv w') (ok : e.fs.Ok) (files : ∀ m j, e.file m = some j → j < e.fs.next) (uniq : ∀ y ∈ fam ++ [nm], oneName e.fs y) (nodup : (fam ++ [nm]).Nodup)
    (isLog : (w'.obj l).kind = .logfile ∧ l ∈ w'.live) (hfd : (w'.obj l).fd = true → ∃ i, e.file l = some i)
    (mine : ∀ i, e.file l = some i → ∃ pre z post, fam ++ [nm] = pre ++ z :: post ∧ e.fs.ino z = some i ∧ ∀ y ∈ post, e.fs.ino y = none)
    (others : ∀ m, m ≠ l → ∀ j, e.file m = some j → ∀ y ∈ fam ++ [nm], e.fs.ino y ≠ some j)
    (tr : ∀ m, e.trunc m = false) (hx : w'.fx = e.w.fx ++ x) (hs : ∀ d, Fx.sent l d ∈ x → e.file l ≠ none)
    (data : (fam ++ [nm]).flatMap (fileAt e.fs) = base ++ sentTo l e.w.fx) : RotInv nm l base fam (e.take w') := by
  have hdrop : w'.fx.drop e.w.fx.length = x := by rw [hx, List.drop_left]
  obtain ⟨p1, p2, p3⟩ := diskPuts_data e.file x e.fs
  have hfs : (e.take w').fs = x.foldl (diskPut e.file) e.fs := by unfold Disk.take; dsimp only; rw [hdrop]
  have ino : (e.take w').fs.ino = e.fs.ino := by rw [hfs, p2]
  have nx : (e.take w').fs.next = e.fs.next := by rw [hfs, p3]
  have dat : ∀ j, (e.take w').fs.data j = e.fs.data j ++ toFile e.file j x := by intro j; rw [hfs, p1]
  have sub : ∀ m j, (e.take w').file m = some j → e.file m = some j := by
    intro m j h
    unfold Disk.take at h
    dsimp only at h
    split at h
    · exact h
    · cases h
  have fx : (e.take w').w.fx = e.w.fx ++ x := by rw [← hx]; rfl
  -- a file that is not the one open
  have same : ∀ y ∈ fam ++ [nm], (∀ i, e.file l = some i → e.fs.ino y ≠ some i) → fileAt (e.take w').fs y = fileAt e.fs y := by
    intro y hy hne
    refine fileAt_congr (by rw [ino]) fun j hj => ?_
    rw [dat, toFile_none, List.append_nil]
    intro m d _ hm
    by_cases g : m = l
    · subst g; exact hne j hm hj
    · exact others m g j hm y hy hj
  refine ⟨fin.tick _, ⟨?_, ?_⟩, ?_, ?_, nodup, isLog, ?_, ?_, ?_, tr, ?_⟩
  · rw [ino, nx]; exact ok.names
  · intro i hi
    rw [nx] at hi
    rw [dat, ok.fresh i hi, toFile_none _ _ _ fun m d _ h => absurd (files m i h) (by omega)]
    rfl
  · intro m j h; rw [nx]; exact files m j (sub m j h)
  · intro y hy; unfold oneName; rw [ino]; exact uniq y hy
  · intro hf
    have hf : (w'.obj l).fd = true := hf
    obtain ⟨i, hi⟩ := hfd hf
    refine ⟨i, ?_⟩
    unfold Disk.take
    dsimp only
    rw [if_pos hf]; exact hi
  · intro i hi; rw [ino]; exact mine i (sub l i hi)
  · intro m hm j hj; rw [ino]; exact others m hm j (sub m j hj)
  · rw [fx, sentTo_append, ← List.append_assoc, ← data]
    cases hl : e.file l with
    | none =>
      rw [sentTo_none l x fun d hd => hs d hd hl, List.append_nil]
      exact fm_congr _ _ _ fun y hy => same y hy fun i hi => by rw [hl] at hi; cases hi
    | some i =>
      obtain ⟨pre, z, post, h1, h2, h3⟩ := mine i hl
      have mem : ∀ y, y ∈ pre ++ z :: post → y ∈ fam ++ [nm] := fun y hy => by rw [h1]; exact hy
      rw [h1] at nodup ⊢
      have nz : ∀ y ∈ pre, e.fs.ino y ≠ some i := by
        intro y hy he
        have : z = y := uniq y (mem y (List.mem_append_left _ hy)) z i he h2
        subst this
        exact (List.nodup_append.1 nodup).2.2 z hy z (List.mem_cons_self ..) rfl
      rw [List.flatMap_append, List.flatMap_append, List.flatMap_cons, List.flatMap_cons]
      have q1 : pre.flatMap (fileAt (e.take w').fs) = pre.flatMap (fileAt e.fs) := fm_congr _ _ _ fun y hy =>
        same y (mem y (List.mem_append_left _ hy)) fun j hj => by rw [hl] at hj; cases hj; exact nz y hy
      have q2 : post.flatMap (fileAt (e.take w').fs) = [] := by
        rw [List.flatMap_eq_nil_iff]
        intro y hy
        exact fileAt_none (by rw [ino]; exact h3 y hy)
      have q3 : post.flatMap (fileAt e.fs) = [] := by
        rw [List.flatMap_eq_nil_iff]
        intro y hy
        exact fileAt_none (h3 y hy)
      have q4 : fileAt (e.take w').fs z = fileAt e.fs z ++ sentTo l x := by
        rw [fileAt_some h2, fileAt_some (by rw [ino]; exact h2), dat]
        congr 1
        refine toFile_sent _ _ _ _ fun m d _ => ⟨fun h => ?_, fun h => by rw [h]; exact hl⟩
        apply Decidable.by_contra
        intro g
        exact others m g i h z (mem z (List.mem_append_right _ (List.mem_cons_self ..))) h2
      rw [q1, q2, q3, q4]
      simp only [List.append_nil, List.append_assoc]

theorem openLog_rot {c : SConf} {pid : Int} {env : Env} {nm : List UInt8} {l : Nat} {base : List UInt8} {fam : List (List UInt8)} {d : Disk} {w' : World} {m : Nat} {ok : Bool}
    {tm : UInt8 → List UInt8} {o : Opened} (I : RotInv nm l base fam d) (hk : (d.w.obj m).kind = .logfile) (ho : d.open c pid m ok tm = some o)
    (hn : ∀ x, c.logName pid tm m = some (some x) → (x = nm ↔ l = m) ∧ x ∉ fam) (hw : d.w.step env (.logOpen m o.ok) = some w') :
    RotInv nm l base fam
      (({ d with fs := o.fs, file := fun i => if i = m then o.file else d.file i, trunc := fun i => if i = m then o.trunc else d.trunc i } : Disk).take w') := by
  obtain ⟨f1, f2, f3, f4, f5⟩ := logOpen_world m o.ok hk hw
  have fin := I.fin.step _ hw
  have isLog : (w'.obj l).kind = .logfile ∧ l ∈ w'.live := by
    refine ⟨?_, by rw [f2]; exact I.isLog.2⟩
    by_cases e : l = m
    · rw [e]; exact f5
    · rw [f3 l e]; exact I.isLog.1
  have hx : w'.fx = d.w.fx ++ [] := by rw [f1, List.append_nil]
  have tr : o.trunc = false → ∀ i, (if i = m then o.trunc else d.trunc i) = false := by
    intro h i
    split
    · exact h
    · exact I.tr i
  rcases open_cases ho with ⟨q1, q2, q3, q4⟩ | ⟨x, q1, q2, q3, q4⟩
  · have sub : ∀ i j, (if i = m then o.file else d.file i) = some j → d.file i = some j := by
      intro i j h
      split at h
      · rw [q2] at h; cases h
      · exact h
    refine take_rot (x := []) fin (by rw [q3]; exact I.ok) (fun i j h => by dsimp only; rw [q3]; exact I.files i j (sub i j h)) (by dsimp only; rw [q3]; exact I.uniq) I.nodup isLog
      ?_ ?_ ?_ (tr ?_) hx (fun d hd => by cases hd) (by dsimp only; rw [q3]; exact I.data)
    · intro hf
      by_cases e : l = m
      · rw [e, f4, q1] at hf; cases hf
      · rw [f3 l e] at hf; dsimp only; rw [if_neg e]; exact I.fd hf
    · intro i hi; dsimp only; rw [q3]; exact I.mine i (sub l i hi)
    · intro i hi j hj; dsimp only; rw [q3]; exact I.others i hi j (sub i j hj)
    · cases h : o.trunc with
      | false => rfl
      | true => have := q4 h; rw [I.tr] at this; cases this
  · rw [I.tr m] at q2 q4
    obtain ⟨hnm, hnf⟩ := hn x q1
    have files : ∀ i j, (if i = m then o.file else d.file i) = some j → j < o.fs.next := by
      intro i j h
      rw [q2]
      split at h
      · rcases q4 with ⟨_, e⟩ | ⟨_, e⟩
        · rw [e] at h; cases h
        · rw [e] at h; cases h; exact (open_ino d.fs x _ I.ok.names).2.1
      · exact Nat.lt_of_lt_of_le (I.files i j h) (open_next _ _ _)
    have okk : o.fs.Ok := by rw [q2]; exact open_ok I.ok _ _
    have hfd : (w'.obj l).fd = true → ∃ i, (if l = m then o.file else d.file l) = some i := by
      intro hf
      by_cases e : l = m
      · rw [e, f4] at hf
        rcases q4 with ⟨g, _⟩ | ⟨_, g⟩
        · rw [g] at hf; cases hf
        · exact ⟨_, by rw [if_pos e]; exact g⟩
      · rw [f3 l e] at hf; rw [if_neg e]; exact I.fd hf
    -- what there is of the parts after the opening
    have oth : ∀ y ∈ fam ++ [nm], y ≠ x → fileAt o.fs y = fileAt d.fs y ∧ o.fs.ino y = d.fs.ino y ∧ oneName o.fs y ∧ d.fs.ino y ≠ some (d.fs.open x false).2 := by
      intro y hy hne
      rw [q2]; exact open_other I.ok y x false (fun e => hne e.symm) (I.uniq y hy)
    by_cases hxn : x = nm
    · have hown := hnm.1 hxn
      subst hxn
      subst hown
      obtain ⟨g1, g2, g3, g4⟩ := open_this I.ok x false (I.uniq x (by simp))
      have ne : ∀ y ∈ fam, y ≠ x := fun y hy e => hnf (by rw [← e]; exact hy)
      refine take_rot (x := []) fin okk files ?_ I.nodup isLog hfd ?_ ?_ (tr q3) hx (fun d hd => by cases hd) ?_
      · intro y hy
        dsimp only
        by_cases e : y = x
        · subst e; rw [q2]; exact g2
        · exact (oth y hy e).2.2.1
      · intro i hi
        dsimp only at hi ⊢
        rw [if_pos rfl] at hi
        refine ⟨fam, x, [], rfl, ?_, fun y hy => by cases hy⟩
        rw [q2, g1]
        rcases q4 with ⟨_, e⟩ | ⟨_, e⟩
        · rw [e] at hi; cases hi
        · rw [e] at hi; exact hi
      · intro i hi j hj y hy
        dsimp only at hj ⊢
        rw [if_neg hi] at hj
        by_cases e : y = x
        · subst e
          rw [q2, g1]
          intro e
          have e := Option.some.inj e
          rcases open_snd d.fs y false with ⟨k, _, _⟩ | ⟨_, k, _⟩
          · exact I.others i hi j hj y hy (by rw [k, e])
          · have := I.files i j hj; omega
        · rw [(oth y hy e).2.1]; exact I.others i hi j hj y hy
      · dsimp only
        rw [← I.data]
        refine fm_congr _ _ _ fun y hy => ?_
        by_cases e : y = x
        · subst e; rw [q2]; exact g3 rfl
        · exact (oth y hy e).1
    · have hown : l ≠ m := fun e => hxn (hnm.2 e)
      have ne : ∀ y ∈ fam ++ [nm], y ≠ x := by
        intro y hy e
        subst e
        rw [List.mem_append, List.mem_singleton] at hy
        rcases hy with h | h
        · exact hnf h
        · exact hxn h
      refine take_rot (x := []) fin okk files (fun y hy => (oth y hy (ne y hy)).2.2.1) I.nodup isLog hfd ?_ ?_ (tr q3) hx (fun d hd => by cases hd) ?_
      · intro i hi
        dsimp only at hi ⊢
        rw [if_neg hown] at hi
        obtain ⟨pre, z, post, h1, h2, h3⟩ := I.mine i hi
        have mem : ∀ y, y ∈ pre ++ z :: post → y ∈ fam ++ [nm] := fun y hy => by rw [h1]; exact hy
        refine ⟨pre, z, post, h1, ?_, fun y hy => ?_⟩
        · have hz := mem z (List.mem_append_right _ (List.mem_cons_self ..))
          rw [(oth z hz (ne z hz)).2.1]; exact h2
        · have hz := mem y (List.mem_append_right _ (List.mem_cons_of_mem _ hy))
          rw [(oth y hz (ne y hz)).2.1]; exact h3 y hy
      · intro i hi j hj y hy
        dsimp only at hj ⊢
        rw [(oth y hy (ne y hy)).2.1]
        by_cases e : i = m
        · rw [if_pos e] at hj
          rcases q4 with ⟨_, k⟩ | ⟨_, k⟩
          · rw [k] at hj; cases hj
          · rw [k] at hj; cases hj; exact (oth y hy (ne y hy)).2.2.2
        · rw [if_neg e] at hj; exact I.others i hi j hj y hy
      · dsimp only
        rw [← I.data]
        exact fm_congr _ _ _ fun y hy => (oth y hy (ne y hy)).1

/-- A file that is renamed. -/
theorem rename_eq {f : LDir} {a b : List UInt8} {i : Nat} (hab : a ≠ b) (ha : f.ino a = some i) :
    (f.rename a b).ino = fun x => if x = b then some i else if x = a then none else f.ino x := by
  unfold LDir.rename
  rw [if_neg hab, ha]

/-- The parts are given new names, one by one. -/
theorem rename_rot {nm : List UInt8} {l : Nat} {base : List UInt8} {fam fam' : List (List UInt8)} {d : Disk} {a b : List UInt8} {c : SConf} {pid : Int}
    (I : RotInv nm l base fam d) (hp : partsStep c pid nm d fam (.rename a b) = some fam') : RotInv nm l base fam' { d with fs := d.fs.rename a b } := by
  have hr := rename_next d.fs a b
  have okk : (d.fs.rename a b).Ok := ⟨fun x i h => by rw [hr.1]; exact rename_names d.fs a b (· < d.fs.next) I.ok.names x i h,
    fun i h => by rw [hr.2]; exact I.ok.fresh i (by rw [hr.1] at h; exact h)⟩
  have files : ∀ m j, d.file m = some j → j < (d.fs.rename a b).next := fun m j h => by rw [hr.1]; exact I.files m j h
  have mem : ∀ y, y ∈ nm :: fam ↔ y ∈ fam ++ [nm] := fun y => by simp [or_comm]
  simp only [partsStep] at hp
  split at hp
  · rename_i h0
    cases hp
    have : d.fs.rename a b = d.fs := by
      unfold LDir.rename
      by_cases e : a = b
      · rw [if_pos e]
      · rw [if_neg e, h0.resolve_left e]
    rw [this]
    exact I
  · rename_i h0
    have hab : a ≠ b := fun e => h0 (.inl e)
    obtain ⟨k, hk⟩ : ∃ k, d.fs.ino a = some k := by
      cases e : d.fs.ino a with
      | none => exact absurd (.inr e) h0
      | some k => exact ⟨k, rfl⟩
    have hi := rename_eq hab hk
    split at hp
    · cases hp
    · rename_i hb
      rw [mem] at hb
      split at hp
      · rename_i ha
        rw [mem] at ha
        split at hp
        · cases hp
        · rename_i hbn
          have hbn : d.fs.ino b = none := by simpa using hbn
          split at hp
          · -- the log file itself
            rename_i han
            cases hp
            subst han
            have hina : (d.fs.rename a b).ino a = none := by rw [hi]; dsimp only; rw [if_neg hab, if_pos rfl]
            have hinb : (d.fs.rename a b).ino b = some k := by rw [hi]; dsimp only; rw [if_pos rfl]
            have hino : ∀ y ∈ fam, (d.fs.rename a b).ino y = d.fs.ino y := by
              intro y hy
              rw [hi]; dsimp only
              rw [if_neg (fun e => hb (by rw [← e]; exact List.mem_append_left _ hy)), if_neg (fun e => ?_)]
              subst e
              exact (List.nodup_append.1 I.nodup).2.2 y hy y (by simp) rfl
            have hun : oneName (d.fs.rename a b) b := by
              intro x i h1 h2
              rw [hinb] at h1; cases h1
              rw [hi] at h2; dsimp only at h2
              split at h2
              · assumption
              · split at h2
                · cases h2
                · rename_i h; exact absurd (I.uniq a (by simp) x _ hk h2) h
            refine ⟨I.fin, okk, files, ?_, ?_, I.isLog, I.fd, ?_, ?_, I.tr, ?_⟩
            · intro y hy
              dsimp only
              rw [List.mem_append, List.mem_append, List.mem_singleton, List.mem_singleton] at hy
              rcases hy with (hy | rfl) | rfl
              · intro x i h1 h2
                rw [hino y hy] at h1
                rw [hi] at h2; dsimp only at h2
                split at h2
                · cases h2
                  have := I.uniq y (List.mem_append_left _ hy) a k h1 hk
                  subst this
                  exact absurd rfl ((List.nodup_append.1 I.nodup).2.2 a hy a (by simp))
                · split at h2
                  · cases h2
                  · exact I.uniq y (List.mem_append_left _ hy) x i h1 h2
              · exact hun
              · intro x i h1 _; rw [hina] at h1; cases h1
            · have n := List.nodup_append.1 I.nodup
              rw [List.append_assoc, List.nodup_append]
              refine ⟨n.1, by simp; exact fun e => hab e.symm, fun x hx y hy e => ?_⟩
              subst e
              simp only [List.mem_append, List.mem_singleton] at hy
              rcases hy with rfl | rfl
              · exact hb (List.mem_append_left _ hx)
              · exact n.2.2 x hx x (by simp) rfl
            · intro i h
              dsimp only at h ⊢
              obtain ⟨pre, z, post, h1, h2, h3⟩ := I.mine i h
              refine ⟨fam, b, [a], by simp, ?_, fun y hy => by rw [List.mem_singleton] at hy; subst hy; exact hina⟩
              rw [hinb]
              have hz : z = a := by
                rcases List.eq_nil_or_concat post with e | ⟨p, y, e⟩
                · subst e
                  have := (List.append_inj' h1 rfl).2
                  rw [List.singleton_inj] at this
                  exact this.symm
                · subst e
                  have : (fam ++ [a]) = (pre ++ z :: p) ++ [y] := by rw [h1]; simp
                  have := (List.append_inj' this rfl).2
                  rw [List.singleton_inj] at this
                  subst this
                  have := h3 a (by simp)
                  rw [hk] at this; cases this
              rw [← h2, hz]; exact hk.symm
            · intro m hm j hj y hy
              dsimp only at hj ⊢
              rw [List.mem_append, List.mem_append, List.mem_singleton, List.mem_singleton] at hy
              rcases hy with (hy | rfl) | rfl
              · rw [hino y hy]; exact I.others m hm j hj y (List.mem_append_left _ hy)
              · rw [hinb, ← hk]; exact I.others m hm j hj a (by simp)
              · rw [hina]; simp
            · dsimp only
              rw [← I.data, List.flatMap_append, List.flatMap_append, List.flatMap_append, List.flatMap_singleton, List.flatMap_singleton, List.flatMap_singleton,
                fileAt_none hina, List.append_nil, fileAt_some hinb, fileAt_some hk, hr.2]
              congr 1
              exact fm_congr _ _ _ fun y hy => fileAt_congr (hino y hy) fun i _ => by rw [hr.2]
          · -- a part of it
            rename_i han
            cases hp
            have hσn : (fam.map fun y => if y = a then b else y) ++ [nm] = (fam ++ [nm]).map fun y => if y = a then b else y := by
              rw [List.map_append]; simp; exact fun e => absurd e.symm han
            have hσ : ∀ y ∈ fam ++ [nm], (d.fs.rename a b).ino (if y = a then b else y) = d.fs.ino y := by
              intro y hy
              rw [hi]; dsimp only
              by_cases e : y = a
              · rw [if_pos e, if_pos rfl, e, hk]
              · rw [if_neg e, if_neg (fun e => hb (by rw [← e]; exact hy)), if_neg e]
            have hback : ∀ x i, (d.fs.rename a b).ino x = some i → (x = b ∧ i = k) ∨ (x ≠ b ∧ x ≠ a ∧ d.fs.ino x = some i) := by
              intro x i h
              rw [hi] at h; dsimp only at h
              split at h
              · rename_i e; exact .inl ⟨e, by cases h; rfl⟩
              · split at h
                · cases h
                · rename_i e1 e2; exact .inr ⟨e1, e2, h⟩
            refine ⟨I.fin, okk, files, ?_, ?_, I.isLog, I.fd, ?_, ?_, I.tr, ?_⟩
            · intro y' hy x i h1 h2
              dsimp only at h1 h2
              rw [hσn, List.mem_map] at hy
              obtain ⟨y, hy, rfl⟩ := hy
              rw [hσ y hy] at h1
              rcases hback x i h2 with ⟨e1, e2⟩ | ⟨e1, e2, e3⟩
              · subst e2
                have := I.uniq a ha y i hk h1
                rw [if_pos this]; exact e1
              · have := I.uniq y hy x i h1 e3
                subst this
                rw [if_neg e2]
            · rw [hσn]
              refine (List.pairwise_map.2 ?_)
              refine List.Pairwise.imp_of_mem ?_ I.nodup
              intro x y hx hy hne
              by_cases e1 : x = a
              · rw [if_pos e1]
                by_cases e2 : y = a
                · exact absurd (e1.trans e2.symm) hne
                · rw [if_neg e2]; exact fun e => hb (by rw [e]; exact hy)
              · rw [if_neg e1]
                by_cases e2 : y = a
                · rw [if_pos e2]; exact fun e => hb (by rw [← e]; exact hx)
                · rw [if_neg e2]; exact hne
            · intro i h
              dsimp only at h ⊢
              obtain ⟨pre, z, post, h1, h2, h3⟩ := I.mine i h
              have mem : ∀ y, y ∈ pre ++ z :: post → y ∈ fam ++ [nm] := fun y hy => by rw [h1]; exact hy
              refine ⟨pre.map _, _, post.map _, by rw [hσn, h1, List.map_append, List.map_cons], ?_, fun y' hy => ?_⟩
              · rw [hσ z (mem z (by simp))]; exact h2
              · rw [List.mem_map] at hy
                obtain ⟨y, hy, rfl⟩ := hy
                rw [hσ y (mem y (by simp [hy]))]; exact h3 y hy
            · intro m hm j hj y' hy
              dsimp only at hj ⊢
              rw [hσn, List.mem_map] at hy
              obtain ⟨y, hy, rfl⟩ := hy
              rw [hσ y hy]; exact I.others m hm j hj y hy
            · dsimp only
              rw [← I.data, hσn, List.flatMap_map]
              refine fm_congr _ _ _ fun y hy => ?_
              unfold fileAt
              rw [hσ y hy, hr.2]
      · -- other files
        rename_i ha
        rw [mem] at ha
        cases hp
        have hino : ∀ y ∈ fam ++ [nm], (d.fs.rename a b).ino y = d.fs.ino y := by
          intro y hy
          rw [hi]; dsimp only
          rw [if_neg (fun e => hb (by rw [← e]; exact hy)), if_neg (fun e => ha (by rw [← e]; exact hy))]
        refine ⟨I.fin, okk, files, ?_, I.nodup, I.isLog, I.fd, ?_, ?_, I.tr, ?_⟩
        · intro y hy x i h1 h2
          dsimp only at h1 h2
          rw [hino y hy] at h1
          rw [hi] at h2; dsimp only at h2
          split at h2
          · cases h2
            exact absurd hy (by rw [← I.uniq y hy a k h1 hk]; exact ha)
          · split at h2
            · cases h2
            · exact I.uniq y hy x i h1 h2
        · intro i h
          dsimp only at h ⊢
          obtain ⟨pre, z, post, h1, h2, h3⟩ := I.mine i h
          have mem : ∀ y, y ∈ pre ++ z :: post → y ∈ fam ++ [nm] := fun y hy => by rw [h1]; exact hy
          exact ⟨pre, z, post, h1, by rw [hino z (mem z (by simp))]; exact h2, fun y hy => by rw [hino y (mem y (by simp [hy]))]; exact h3 y hy⟩
        · intro m hm j hj y hy
          dsimp only at hj ⊢
          rw [hino y hy]; exact I.others m hm j hj y hy
        · dsimp only
          rw [← I.data]
          exact fm_congr _ _ _ fun y hy => fileAt_congr (hino y hy) fun i _ => by rw [hr.2]

theorem rot_step {c : SConf} {pid : Int} {env : Env} {nm : List UInt8} {l : Nat} {base : List UInt8} {fam fam' : List (List UInt8)} {d d' : Disk} (e : DiskEv)
    (I : RotInv nm l base fam d) (hs : d.step c pid env e = some d') (hp : partsStep c pid nm d fam e = some fam')
    (hn : ∀ m ok tm x, e = .openLog m ok tm → c.logName pid tm m = some (some x) → (x = nm ↔ some l = some m)) : RotInv nm l base fam' d' := by
  have mem : ∀ y, y ∈ nm :: fam ↔ y ∈ fam ++ [nm] := fun y => by simp [or_comm]
  cases e with
  | step s =>
    simp only [partsStep, Option.some.injEq] at hp
    subst hp
    simp only [Disk.step] at hs
    split at hs
    · cases hs; exact I
    · rename_i ho
      rw [Option.map_eq_some_iff] at hs
      obtain ⟨w', hw, rfl⟩ := hs
      obtain ⟨x, hx, hq⟩ := step_sent env s hw
      have lv := step_live I.fin.e.d s hw
      have up : (w'.obj l).fd = true → (d.w.obj l).fd = true := by
        intro hf
        cases g : (d.w.obj l).fd with
        | true => rfl
        | false =>
          have := (log_closed_step I.fin l I.isLog.1 I.isLog.2 g s hw (by rintro rfl; exact ho rfl)).2.2.1
          rw [this] at hf; cases hf
      refine take_rot (x := x) (I.fin.step s hw) I.ok I.files I.uniq I.nodup ?_ (fun hf => I.fd (up hf)) I.mine I.others I.tr hx ?_ I.data
      · obtain ⟨h1, h2⟩ := I.isLog
        refine ⟨by rw [lv.2.2 l h2]; exact h1, ?_⟩
        rcases lv.2.1 l h2 with z | z
        · exact z
        · rw [h1] at z; cases z.2
      · intro y hy hf
        have hp := (hq l y hy).1
        cases g : (d.w.obj l).fd with
        | true => obtain ⟨i, hi⟩ := I.fd g; rw [hf] at hi; cases hi
        | false => have := ((I.fin.e.d.inv.oi l).closed g).2; rw [this] at hp; cases hp
  | openLog m ok tm =>
    have hn' : ∀ x, c.logName pid tm m = some (some x) → (x = nm ↔ l = m) ∧ x ∉ fam := by
      intro x hx
      refine ⟨by have := hn m ok tm x rfl hx; rw [Option.some.injEq] at this; exact this, ?_⟩
      simp only [partsStep, hx] at hp
      split at hp
      · cases hp
      · assumption
    have hf : fam' = fam := by
      simp only [partsStep] at hp
      split at hp
      · split at hp
        · cases hp
        · cases hp; rfl
      · cases hp; rfl
    subst hf
    simp only [Disk.step] at hs
    split at hs
    · cases hs; exact I
    · rename_i hk
      rw [Option.bind_eq_some_iff] at hs
      obtain ⟨o, ho, hs⟩ := hs
      rw [Option.map_eq_some_iff] at hs
      obtain ⟨w', hw, rfl⟩ := hs
      exact openLog_rot I (by simpa using hk) ho hn' hw
  | rename a b =>
    simp only [Disk.step, Option.some.injEq] at hs
    subst hs
    exact rename_rot I hp
  | remove a =>
    simp only [Disk.step, Option.some.injEq] at hs
    subst hs
    simp only [partsStep] at hp
    split at hp
    · cases hp
    · rename_i ha
      rw [mem] at ha
      cases hp
      have hino : ∀ y ∈ fam ++ [nm], (if y = a then none else d.fs.ino y) = d.fs.ino y := fun y hy => if_neg fun e => ha (by rw [← e]; exact hy)
      have sub : ∀ x i, (if x = a then none else d.fs.ino x) = some i → d.fs.ino x = some i := by
        intro x i h
        split at h
        · cases h
        · exact h
      refine ⟨I.fin, ⟨fun x i h => I.ok.names x i (sub x i h), I.ok.fresh⟩, I.files, fun y hy x i h1 h2 => I.uniq y hy x i (sub y i h1) (sub x i h2), I.nodup, I.isLog, I.fd, ?_, ?_,
        I.tr, ?_⟩
      · intro i h
        dsimp only at h ⊢
        obtain ⟨pre, z, post, h1, h2, h3⟩ := I.mine i h
        have mem : ∀ y, y ∈ pre ++ z :: post → y ∈ fam ++ [nm] := fun y hy => by rw [h1]; exact hy
        exact ⟨pre, z, post, h1, by rw [hino z (mem z (by simp))]; exact h2, fun y hy => by rw [hino y (mem y (by simp [hy]))]; exact h3 y hy⟩
      · intro m hm j hj y hy
        dsimp only at hj ⊢
        rw [hino y hy]; exact I.others m hm j hj y hy
      · dsimp only
        rw [← I.data]
        exact fm_congr _ _ _ fun y hy => fileAt_congr (hino y hy) fun i _ => rfl
  | other i x =>
    simp only [Disk.step, Option.some.injEq] at hs
    subst hs
    simp only [partsStep] at hp
    split at hp
    · cases hp
    · rename_i ha
      cases hp
      split
      · refine ⟨I.fin, ⟨I.ok.names, fun j h => ?_⟩, I.files, I.uniq, I.nodup, I.isLog, I.fd, I.mine, I.others, I.tr, ?_⟩
        · have h : d.fs.next ≤ j := h
          show (if j = i then _ else _) = []
          rw [if_neg (by omega)]; exact I.ok.fresh j h
        · dsimp only
          rw [← I.data]
          refine fm_congr _ _ _ fun y hy => fileAt_congr rfl fun j hj => ?_
          show (if j = i then _ else _) = _
          rw [if_neg (fun e => ha ⟨y, (mem y).2 hy, by rw [hj, e]⟩)]
      · exact I
  | hold i b =>
    simp only [Disk.step, Option.some.injEq] at hs
    subst hs
    simp only [partsStep, Option.some.injEq] at hp
    subst hp
    exact ⟨I.fin, I.ok, I.files, I.uniq, I.nodup, I.isLog, I.fd, I.mine, I.others, I.tr, I.data⟩

theorem rot_run {c : SConf} {pid : Int} {env : Env} {nm : List UInt8} {l : Nat} {base : List UInt8} (es : List DiskEv) : ∀ {d d' : Disk} {fam fam' : List (List UInt8)},
    RotInv nm l base fam d → d.run c pid env es = some d' → parts c pid env nm d fam es = some fam' → onlyLog c pid nm (some l) es → RotInv nm l base fam' d' := by
  induction es with
  | nil =>
    intro d d' fam fam' I hr hp _
    simp only [Disk.run, Option.some.injEq] at hr
    simp only [parts, Option.some.injEq] at hp
    subst hr; subst hp; exact I
  | cons e es ih =>
    intro d d' fam fam' I hr hp hn
    simp only [Disk.run, Option.bind_eq_some_iff] at hr
    obtain ⟨d1, h1, h2⟩ := hr
    simp only [parts, Option.bind_eq_some_iff] at hp
    obtain ⟨f1, p1, p2⟩ := hp
    rw [h1] at p2
    refine ih (rot_step e I h1 p1 ?_) h2 p2 fun m ok tm x hm => hn m ok tm x (List.mem_cons_of_mem _ hm)
    rintro m ok tm x rfl
    exact hn m ok tm x (List.mem_cons_self ..)

theorem rot_boot (c : SConf) (fs : LDir) (held : Nat → Bool) (nm : List UInt8) (l : Nat) (hf : fs.Ok) (hu : oneName fs nm) (h0 : FInv c.world)
    (hl : (c.world.obj l).kind = .logfile ∧ l ∈ c.world.live ∧ (c.world.obj l).fd = false) : RotInv nm l (fileAt fs nm) [] (Disk.boot c fs held false) := by
  refine ⟨h0, hf, fun m j h => (nomatch h), fun y hy => ?_, by simp, ⟨hl.1, hl.2.1⟩, fun hfd => ?_, fun i hi => (nomatch hi), fun m hm j hj => (nomatch hj), fun m => rfl, ?_⟩
  · simp only [List.nil_append, List.mem_singleton] at hy; subst hy; exact hu
  · rw [show (Disk.boot c fs held false).w = c.world from rfl, hl.2.2] at hfd; cases hfd
  · show ([] ++ [nm]).flatMap (fileAt fs) = fileAt fs nm ++ sentTo l c.world.fx
    rw [show sentTo l c.world.fx = [] from rfl]
    simp

end Conman
