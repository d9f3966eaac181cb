import Verif.Lay.Spec
/-!
# C177
-/
set_option linter.unusedSimpArgs false

namespace Verif.Lay

theorem part_mk (c : Code) (wi ei h : Nat) (x : Cell) : W.part ⟨c, wi, ei⟩ h x = ⟨put (put c h (.ip (wi + 1))) (wi + 1) x, wi + 1, ei⟩ := rfl

theorem start_mk (c : Code) (wi ei h n : Nat) :
    W.start ⟨c, wi, ei⟩ h n = ⟨put (put c h (.ip (wi + 1))) (wi + 1) (.set n), wi + 1, wi + 1 + n⟩ := rfl

theorem write_mk (c : Code) (wi ei : Nat) (x : Cell) : W.write ⟨c, wi, ei⟩ x = ⟨put c (wi + 1) x, wi + 1, ei⟩ := rfl

theorem next_mk (c : Code) (wi ei : Nat) (x : Cell) : W.next ⟨c, wi, ei⟩ x = ⟨put c (ei + 1) x, wi, ei + 1⟩ := rfl

theorem assign_mk (c : Code) (wi ei v : Nat) (x : Cell) :
    W.assign ⟨c, wi, ei⟩ v x = ⟨put (put c (wi + 1) (.asg v (ei + 1))) (ei + 1) x, wi + 1, ei + 1⟩ := rfl

theorem dur_mk (c : Code) (wi ei : Nat) (d : Int) :
    W.nextDur ⟨c, wi, ei⟩ d = ⟨put (put (put c (ei + 1) .dur) (ei + 2) (.hi d)) (ei + 3) (.lo d), wi, ei + 3⟩ := rfl

theorem guard_mk (c : Code) (wi ei l r : Nat) (f : Fn) (d : Int) : W.guard ⟨c, wi, ei⟩ l r f d =
    ⟨put (put (put (put (put (put (put c (wi + 1) (.asg l (ei + 1))) (ei + 1) (.op f 2)) (ei + 2) (.vl r)) (ei + 3) (.ip (ei + 4)))
      (ei + 4) .dur) (ei + 5) (.hi d)) (ei + 6) (.lo d), wi + 1, ei + 6⟩ := rfl

theorem skip_mk (c : Code) (wi ei : Nat) : W.skip ⟨c, wi, ei⟩ = ⟨c, wi, ei + 1⟩ := rfl

theorem close_mk (c : Code) (wi ei : Nat) : W.close ⟨c, wi, ei⟩ = ⟨c, ei, ei⟩ := rfl

/-- The code with words written one after the other. -/
def puts (c : Code) (i : Nat) (xs : List Cell) : Code := fun j => if i < j ∧ j ≤ i + xs.length then xs.getD (j - i - 1) .nil else c j

theorem nexts_mk : ∀ (xs : List Cell) (c : Code) (wi ei : Nat), W.nexts ⟨c, wi, ei⟩ xs = ⟨puts c ei xs, wi, ei + xs.length⟩
  | [], c, wi, ei => by
    simp only [W.nexts, List.length_nil, Nat.add_zero, W.mk.injEq, true_and, and_true]
    funext j
    simp only [puts, List.length_nil, Nat.add_zero]
    rw [if_neg (by omega)]
  | x :: xs, c, wi, ei => by
    rw [W.nexts, next_mk, nexts_mk xs]
    simp only [W.mk.injEq, List.length_cons, true_and]
    refine ⟨?_, by omega⟩
    funext j
    simp only [puts, put, List.length_cons]
    by_cases e : j = ei + 1
    · subst e
      rw [if_neg (by omega), if_pos rfl, if_pos (by omega)]
      have : ei + 1 - ei - 1 = 0 := by omega
      rw [this]; rfl
    · by_cases k : ei + 1 < j ∧ j ≤ ei + 1 + xs.length
      · rw [if_pos k, if_pos (by omega)]
        have : j - ei - 1 = (j - (ei + 1) - 1) + 1 := by omega
        rw [this]; rfl
      · rw [if_neg k, if_neg e, if_neg (by omega)]

theorem readN_congr {r r' : Nat → Option Tree} : ∀ {n i j : Nat}, (∀ k < n, r (i + k) = r' (j + k)) → readN r n i = readN r' n j
  | 0, _, _, _ => rfl
  | n + 1, i, j, h => by
    rw [readN, readN, show r i = r' j from h 0 (by omega), readN_congr (r := r) (r' := r') (i := i + 1) (j := j + 1) fun k hk => by
      have e := h (k + 1) (by omega)
      rw [show i + 1 + k = i + (k + 1) by omega, show j + 1 + k = j + (k + 1) by omega]
      exact e]

theorem readN_some {r : Nat → Option Tree} {t : Nat → Tree} : ∀ {n i : Nat}, (∀ k < n, r (i + k) = some (t k)) → readN r n i = some ((List.range n).map t)
  | 0, _, _ => rfl
  | n + 1, i, h => by
    rw [readN, show r i = some (t 0) from h 0 (by omega), readN_some (t := fun k => t (k + 1)) (i := i + 1) fun k hk => by
      have := h (k + 1) (by omega)
      rwa [Nat.add_assoc, Nat.add_comm 1 k]]
    rw [List.range_succ_eq_map]
    simp

theorem read_ip {D : Code} {refs : List Nat} {f i j : Nat} (h : D i = .ip j) : read D refs (f + 1) i = read D refs f j := by rw [read, h]

theorem read_asg {D : Code} {refs : List Nat} {f i v j : Nat} (h : D i = .asg v j) :
    read D refs (f + 1) i = (read D refs f j).map (.asg v) := by rw [read, h]

theorem read_set {D : Code} {refs : List Nat} {f i n : Nat} (h : D i = .set n) :
    read D refs (f + 1) i = (readN (read D refs f) n (i + 1)).map (.app .set) := by rw [read, h]

theorem read_obj {D : Code} {refs : List Nat} {f i k n : Nat} (h : D i = .obj k n) :
    read D refs (f + 1) i = (readN (read D refs f) n (i + 1)).map (.app (.obj k)) := by rw [read, h]

theorem guard_read {D : Code} {refs : List Nat} {f i j l r : Nat} {g : Fn} {d : Int} (h : D i = .asg l j) (h0 : D j = .op g 2)
    (h1 : D (j + 1) = .vl r) (h2 : D (j + 2) = .ip (j + 3)) (h3 : D (j + 3) = .dur) (h4 : D (j + 4) = .hi d) (h5 : D (j + 5) = .lo d) :
    read D refs (f + 1 + 1 + 1 + 1) i = some (timed l r g d) := by
  simp [read, readN, h, h0, h1, h2, h3, h4, h5, timed]

set_option maxHeartbeats 2000000 in
/-- What the guards are read as, in code that is as the builder left it where it wrote. -/
theorem build_read (c : Code) (u ei : Nat) (V : Vars) (refs cmdRefs : List Nat) (b : Builder) (hs : Sound V b) (bwd : List Tree)
    (hb : bwdOf V cmdRefs b = some bwd) :
    ∃ C e e', buildW V ⟨c, u + 10, ei⟩ b = ⟨C, e, e'⟩ ∧ u + 10 ≤ e ∧ (∀ i ≤ u + 10, i ≠ 3 → i ≠ 4 → C i = c i) ∧
      ∀ D : Code, (∀ i, i < 5 ∨ (u + 10 < i ∧ i ≤ e) → D i = C i) →
        read D refs 9 3 = some (.app .set (fwdOf V b)) ∧ read D refs 9 4 = some (.app .set bwd) := by
  cases b with
  | none =>
    cases hb
    simp only [buildW, part_mk, Nat.add_assoc, Nat.reduceAdd]
    refine ⟨_, _, _, rfl, by omega, fun i h3 h4 h5 => ?_, fun D hD => ?_⟩
    · simp only [put, fwdGuards, bwdGuards]
      repeat rw [if_neg (by omega)]
      all_goals simp [h4, h5]
    · constructor <;> simp [read, hD, put, readN, fwdGuards, bwdGuards, fwdOf]
  | timing p =>
    cases hb
    simp only [buildW, start_mk, W.fwd, W.bwd, guard_mk, close_mk, Nat.add_assoc, Nat.reduceAdd]
    refine ⟨_, _, _, rfl, by omega, fun i h3 h4 h5 => ?_, fun D hD => ?_⟩
    · simp only [put, fwdGuards, bwdGuards]
      repeat rw [if_neg (by omega)]
      all_goals simp [h4, h5]
    · constructor <;> simp [read, hD, put, readN, fwdGuards, bwdGuards, fwdOf, timed]
  | speed p off =>
    cases hb
    simp only [buildW, start_mk, W.fwd, W.bwd, guard_mk, close_mk, assign_mk, next_mk, dur_mk, Nat.add_assoc, Nat.reduceAdd]
    refine ⟨_, _, _, rfl, by omega, fun i h3 h4 h5 => ?_, fun D hD => ?_⟩
    · simp only [put, fwdGuards, bwdGuards]
      repeat rw [if_neg (by omega)]
      all_goals simp [h4, h5]
    · constructor <;> simp [read, hD, put, readN, fwdGuards, bwdGuards, fwdOf, timed, sets, bwdOf.base]
  | noArg p off =>
    cases hb
    simp only [buildW, start_mk, W.fwd, W.bwd, guard_mk, close_mk, Nat.add_assoc, Nat.reduceAdd]
    refine ⟨_, _, _, rfl, by omega, fun i h3 h4 h5 => ?_, fun D hD => ?_⟩
    · simp only [put, fwdGuards, bwdGuards]
      repeat rw [if_neg (by omega)]
      all_goals simp [h4, h5]
    · constructor <;> simp [read, hD, put, readN, fwdGuards, bwdGuards, fwdOf, timed, bwdOf.base]
  | cmd m p off =>
    cases hb
    simp only [buildW, start_mk, W.fwd, W.bwd, guard_mk, close_mk, assign_mk, next_mk, skip_mk, Nat.add_assoc, Nat.reduceAdd]
    refine ⟨_, _, _, rfl, by omega, fun i h3 h4 h5 => ?_, fun D hD => ?_⟩
    · simp only [put, fwdGuards, bwdGuards]
      repeat rw [if_neg (by omega)]
      all_goals simp [h4, h5]
    · constructor <;> simp [read, hD, put, readN, fwdGuards, bwdGuards, fwdOf, timed, sets, bwdOf.base, fwdFn, bwdFn]
  | const m p off k =>
    cases hb
    obtain ⟨e1, e2⟩ := hs
    simp only [buildW, start_mk, W.fwd, W.bwd, guard_mk, close_mk, assign_mk, next_mk, skip_mk, Nat.add_assoc, Nat.reduceAdd]
    refine ⟨_, _, _, rfl, by omega, fun i h3 h4 h5 => ?_, fun D hD => ?_⟩
    · simp only [put, fwdGuards, bwdGuards]
      repeat rw [if_neg (by omega)]
      all_goals simp [h4, h5]
    · constructor <;> simp [read, hD, put, readN, fwdGuards, bwdGuards, fwdOf, timed, sets, bwdOf.base, fwdFn, bwdFn, e1, e2]
  | bwdArg p off a =>
    cases a with
    | word x => exact absurd hs id
    | num k =>
      cases hb
      simp only [buildW, W.arg, start_mk, W.fwd, W.bwd, guard_mk, close_mk, assign_mk, next_mk, skip_mk, Nat.add_assoc, Nat.reduceAdd]
      refine ⟨_, _, _, rfl, by omega, fun i h3 h4 h5 => ?_, fun D hD => ?_⟩
      · simp only [put, fwdGuards, bwdGuards]
        repeat rw [if_neg (by omega)]
        all_goals simp [h4, h5]
      · constructor <;> simp [read, hD, put, readN, fwdGuards, bwdGuards, fwdOf, timed, bwdOf.base]
    | obj k xs =>
      simp only [bwdOf, Arg.tree, Option.map_map, Option.map_eq_some_iff] at hb
      obtain ⟨ts, ht, rfl⟩ := hb
      simp only [buildW, W.arg, start_mk, W.fwd, W.bwd, guard_mk, close_mk, assign_mk, nexts_mk, skip_mk, Nat.add_assoc, Nat.reduceAdd]
      refine ⟨_, _, _, rfl, by omega, fun i h3 h4 h5 => ?_, fun D hD => ?_⟩
      · simp only [put, puts, fwdGuards, bwdGuards]
        repeat rw [if_neg (by omega)]
        all_goals simp [h4, h5]
      · have hm : ∀ f, readN (read D refs (f + 1)) xs.length (u + 57) = some ts := by
          intro f
          rw [← ht]
          refine readN_congr fun k hk => ?_
          have hx : D (u + 57 + k) = xs.getD k .nil := by
            rw [hD _ (.inr (by omega))]
            simp only [put, puts, fwdGuards, bwdGuards]
            rw [if_pos (by omega), show u + 57 + k - (u + 56) - 1 = k by omega]
          have hp := hs _ (List.getElem_mem hk)
          have hg : xs.getD k .nil = xs[k] := by simp [hk]
          rw [read, read, hx, Nat.zero_add, hg]
          revert hp
          cases xs[k] <;> simp [Plain]
        have g1 := guard_read (D := D) (refs := refs) (f := 3) (i := u + 12) (j := u + 14) (l := V.t2) (r := V.t0) (g := .add) (d := p)
          (by rw [hD _ (by omega)]; simp [Nat.add_assoc, put, puts, fwdGuards, bwdGuards]) (by rw [hD _ (by omega)]; simp [Nat.add_assoc, put, puts, fwdGuards, bwdGuards]) (by rw [hD _ (by omega)]; simp [Nat.add_assoc, put, puts, fwdGuards, bwdGuards]) (by rw [hD _ (by omega)]; simp [Nat.add_assoc, put, puts, fwdGuards, bwdGuards]) (by rw [hD _ (by omega)]; simp [Nat.add_assoc, put, puts, fwdGuards, bwdGuards]) (by rw [hD _ (by omega)]; simp [Nat.add_assoc, put, puts, fwdGuards, bwdGuards]) (by rw [hD _ (by omega)]; simp [Nat.add_assoc, put, puts, fwdGuards, bwdGuards])
        have g2 := guard_read (D := D) (refs := refs) (f := 3) (i := u + 13) (j := u + 20) (l := V.t3) (r := V.t1) (g := .add) (d := p)
          (by rw [hD _ (by omega)]; simp [Nat.add_assoc, put, puts, fwdGuards, bwdGuards]) (by rw [hD _ (by omega)]; simp [Nat.add_assoc, put, puts, fwdGuards, bwdGuards]) (by rw [hD _ (by omega)]; simp [Nat.add_assoc, put, puts, fwdGuards, bwdGuards]) (by rw [hD _ (by omega)]; simp [Nat.add_assoc, put, puts, fwdGuards, bwdGuards]) (by rw [hD _ (by omega)]; simp [Nat.add_assoc, put, puts, fwdGuards, bwdGuards]) (by rw [hD _ (by omega)]; simp [Nat.add_assoc, put, puts, fwdGuards, bwdGuards]) (by rw [hD _ (by omega)]; simp [Nat.add_assoc, put, puts, fwdGuards, bwdGuards])
        have g3 := guard_read (D := D) (refs := refs) (f := 3) (i := u + 27) (j := u + 32) (l := V.t0) (r := V.t2) (g := .sub) (d := p)
          (by rw [hD _ (by omega)]; simp [Nat.add_assoc, put, puts, fwdGuards, bwdGuards]) (by rw [hD _ (by omega)]; simp [Nat.add_assoc, put, puts, fwdGuards, bwdGuards]) (by rw [hD _ (by omega)]; simp [Nat.add_assoc, put, puts, fwdGuards, bwdGuards]) (by rw [hD _ (by omega)]; simp [Nat.add_assoc, put, puts, fwdGuards, bwdGuards]) (by rw [hD _ (by omega)]; simp [Nat.add_assoc, put, puts, fwdGuards, bwdGuards]) (by rw [hD _ (by omega)]; simp [Nat.add_assoc, put, puts, fwdGuards, bwdGuards]) (by rw [hD _ (by omega)]; simp [Nat.add_assoc, put, puts, fwdGuards, bwdGuards])
        have g4 := guard_read (D := D) (refs := refs) (f := 3) (i := u + 28) (j := u + 38) (l := V.t1) (r := V.t3) (g := .sub) (d := p)
          (by rw [hD _ (by omega)]; simp [Nat.add_assoc, put, puts, fwdGuards, bwdGuards]) (by rw [hD _ (by omega)]; simp [Nat.add_assoc, put, puts, fwdGuards, bwdGuards]) (by rw [hD _ (by omega)]; simp [Nat.add_assoc, put, puts, fwdGuards, bwdGuards]) (by rw [hD _ (by omega)]; simp [Nat.add_assoc, put, puts, fwdGuards, bwdGuards]) (by rw [hD _ (by omega)]; simp [Nat.add_assoc, put, puts, fwdGuards, bwdGuards]) (by rw [hD _ (by omega)]; simp [Nat.add_assoc, put, puts, fwdGuards, bwdGuards]) (by rw [hD _ (by omega)]; simp [Nat.add_assoc, put, puts, fwdGuards, bwdGuards])
        have g5 := guard_read (D := D) (refs := refs) (f := 3) (i := u + 29) (j := u + 44) (l := V.s0) (r := V.t2) (g := .sub) (d := off)
          (by rw [hD _ (by omega)]; simp [Nat.add_assoc, put, puts, fwdGuards, bwdGuards]) (by rw [hD _ (by omega)]; simp [Nat.add_assoc, put, puts, fwdGuards, bwdGuards]) (by rw [hD _ (by omega)]; simp [Nat.add_assoc, put, puts, fwdGuards, bwdGuards]) (by rw [hD _ (by omega)]; simp [Nat.add_assoc, put, puts, fwdGuards, bwdGuards]) (by rw [hD _ (by omega)]; simp [Nat.add_assoc, put, puts, fwdGuards, bwdGuards]) (by rw [hD _ (by omega)]; simp [Nat.add_assoc, put, puts, fwdGuards, bwdGuards]) (by rw [hD _ (by omega)]; simp [Nat.add_assoc, put, puts, fwdGuards, bwdGuards])
        have g6 := guard_read (D := D) (refs := refs) (f := 3) (i := u + 30) (j := u + 50) (l := V.s1) (r := V.t3) (g := .sub) (d := p)
          (by rw [hD _ (by omega)]; simp [Nat.add_assoc, put, puts, fwdGuards, bwdGuards]) (by rw [hD _ (by omega)]; simp [Nat.add_assoc, put, puts, fwdGuards, bwdGuards]) (by rw [hD _ (by omega)]; simp [Nat.add_assoc, put, puts, fwdGuards, bwdGuards]) (by rw [hD _ (by omega)]; simp [Nat.add_assoc, put, puts, fwdGuards, bwdGuards]) (by rw [hD _ (by omega)]; simp [Nat.add_assoc, put, puts, fwdGuards, bwdGuards]) (by rw [hD _ (by omega)]; simp [Nat.add_assoc, put, puts, fwdGuards, bwdGuards]) (by rw [hD _ (by omega)]; simp [Nat.add_assoc, put, puts, fwdGuards, bwdGuards])
        have d3 : D 3 = .ip (u + 11) := by
          rw [hD _ (by omega)]
          simp only [put, puts, fwdGuards, bwdGuards]
          repeat rw [if_neg (by omega)]
          first | rfl | simp
        have d11 : D (u + 11) = .set 2 := by rw [hD _ (by omega)]; simp [put, puts, fwdGuards, bwdGuards]
        have d4 : D 4 = .ip (u + 26) := by
          rw [hD _ (by omega)]
          simp only [put, puts, fwdGuards, bwdGuards]
          repeat rw [if_neg (by omega)]
          first | rfl | simp
        have d26 : D (u + 26) = .set 5 := by rw [hD _ (by omega)]; simp [put, puts, fwdGuards, bwdGuards]
        have d31 : D (u + 31) = .asg V.s (u + 56) := by rw [hD _ (by omega)]; simp [put, puts, fwdGuards, bwdGuards]
        have d56 : D (u + 56) = .obj k xs.length := by rw [hD _ (by omega)]; simp [put, puts, fwdGuards, bwdGuards]
        constructor
        · rw [read_ip d3, read_set d11]
          simp only [readN, Nat.add_assoc, Nat.reduceAdd, g1, g2]
          rfl
        · have g7 : read D refs 7 (u + 31) = some (.asg V.s (.app (.obj k) ts)) := by
            rw [read_asg d31, read_obj d56, hm 4]
            rfl
          rw [read_ip d4, read_set d26]
          simp only [readN, Nat.add_assoc, Nat.reduceAdd, g3, g4, g5, g6, g7]
          rfl

theorem vars_mk : ∀ (n : Nat) (c : Code) (wi ei i : Nat),
    W.vars ⟨c, wi, ei⟩ i n = ⟨fun j => if wi < j ∧ j ≤ wi + n then .vl (i + (j - wi - 1)) else c j, wi + n, ei⟩
  | 0, c, wi, ei, i => by
    simp only [W.vars, Nat.add_zero, W.mk.injEq, and_true]
    funext j
    rw [if_neg (by omega)]
  | n + 1, c, wi, ei, i => by
    rw [W.vars, write_mk, vars_mk n]
    simp only [W.mk.injEq, and_true]
    refine ⟨?_, by omega⟩
    funext j
    simp only [put]
    by_cases e : j = wi + 1
    · subst e
      rw [if_neg (by omega), if_pos rfl, if_pos (by omega), show i + (wi + 1 - wi - 1) = i by omega]
    · by_cases k : wi + 1 < j ∧ j ≤ wi + 1 + n
      · rw [if_pos k, if_pos (by omega), show i + 1 + (j - (wi + 1) - 1) = i + (j - wi - 1) by omega]
      · rw [if_neg k, if_neg e, if_neg (by omega)]

theorem readN_append {r : Nat → Option Tree} {ts : List Tree} : ∀ {n i : Nat} {us : List Tree}, readN r n i = some us →
    ∀ {m : Nat}, readN r m (i + n) = some ts → readN r (n + m) i = some (us ++ ts)
  | 0, i, us, h, m, k => by
    cases h
    rw [Nat.zero_add]
    exact k
  | n + 1, i, us, h, m, k => by
    rw [readN] at h
    rw [show n + 1 + m = (n + m) + 1 by omega, readN]
    cases ht : r i with
    | none => rw [ht] at h; cases h
    | some t =>
      rw [ht] at h
      cases hv : readN r n (i + 1) with
      | none => rw [hv] at h; cases h
      | some vs =>
        rw [hv] at h
        cases h
        rw [show i + (n + 1) = i + 1 + n by omega] at k
        rw [readN_append hv k]
        rfl

/-- The head of a model. -/
theorem head_read (n lhs rhs out : Nat) :
    ∃ C u, head n = ⟨C, u + 10, 0⟩ ∧ C 0 = .mdl ∧ C 1 = .ip 11 ∧ C 11 = .set (if n < 2 then n else n - 1) ∧
      ∀ D : Code, (∀ i, i < 3 ∨ (10 < i ∧ i ≤ u + 10) → D i = C i) →
        read D [lhs, rhs, out] 9 1 = some (.app .set (argsOf n)) ∧
        read D [lhs, rhs, out] 9 2 = some (.app .set [.ref lhs, .ref rhs]) := by
  by_cases h2 : 2 ≤ n
  · obtain ⟨m, rfl⟩ : ∃ m, n = m + 2 := ⟨n - 2, by omega⟩
    simp only [head, arity, h2, if_true, part_mk, vars_mk, write_mk, Nat.add_assoc, Nat.reduceAdd, tplArgs, objs]
    refine ⟨_, m + 8, by rw [W.mk.injEq]; exact ⟨rfl, by omega, rfl⟩, ?_, ?_, ?_, fun D hD => ?_⟩
    · simp [put]
    · simp only [put]
      repeat rw [if_neg (by omega)]
      simp
    · simp only [put]
      repeat rw [if_neg (by omega)]
      simp
    · have ha : ∀ f, readN (read D [lhs, rhs, out] (f + 4)) (m + 1) 12 =
          some ((List.range m).map .var ++ [.app .ti [.var m, .var (m + 1)]]) := by
        intro f
        refine readN_append (readN_some fun k hk => ?_) ?_
        · have hx : D (12 + k) = .vl k := by
            rw [hD _ (.inr (by omega))]
            simp only [put]
            repeat rw [if_neg (by omega)]
            rw [if_pos (by omega), show 0 + (12 + k - 11 - 1) = k by omega]
          rw [read, hx]
        · have d0 : D (12 + m) = .ip (m + 13) := by
            rw [hD _ (.inr (by omega))]
            simp only [put]
            repeat rw [if_neg (by omega)]
            rw [if_pos (by omega)]
            congr 1; omega
          have d1 : D (m + 13) = .ti := by
            rw [hD _ (.inr (by omega))]
            simp only [put]
            repeat rw [if_neg (by omega)]
            rw [if_pos (by omega)]
          have d2 : D (m + 14) = .vl m := by
            rw [hD _ (.inr (by omega))]
            simp only [put]
            repeat rw [if_neg (by omega)]
            rw [if_pos (by omega)]
            congr 1
          have d3 : D (m + 15) = .vl (m + 1) := by
            rw [hD _ (.inr (by omega))]
            simp only [put]
            repeat rw [if_neg (by omega)]
            rw [if_pos (by omega)]
            congr 1
          simp [readN, read, d0, d1, d2, d3]
      have d1 : D 1 = .ip 11 := by
        rw [hD _ (.inl (by omega))]
        simp only [put]
        repeat rw [if_neg (by omega)]
        simp
      have d11 : D 11 = .set (m + 1) := by
        rw [hD _ (.inr (by omega))]
        simp only [put]
        repeat rw [if_neg (by omega)]
        simp
      have d2 : D 2 = .ip (m + 16) := by
        rw [hD _ (.inl (by omega))]
        simp only [put]
        repeat rw [if_neg (by omega)]
        simp
        omega
      have e0 : D (m + 16) = .set 2 := by
        rw [hD _ (.inr (by omega))]
        simp only [put]
        repeat rw [if_neg (by omega)]
        rw [if_pos (by omega)]
      have e1 : D (m + 17) = .rp 0 := by
        rw [hD _ (.inr (by omega))]
        simp only [put]
        repeat rw [if_neg (by omega)]
        rw [if_pos (by omega)]
      have e2 : D (m + 18) = .rp 1 := by
        rw [hD _ (.inr (by omega))]
        simp only [put]
        rw [if_pos (by omega)]
      constructor
      · rw [read_ip d1, read_set d11, ha 3]
        rw [argsOf, if_neg (by omega)]
        rfl
      · simp [read, readN, d2, e0, e1, e2]
  · have : n = 0 ∨ n = 1 := by omega
    rcases this with rfl | rfl
    · refine ⟨put (put (put (put (put (put (put (fun _ => .nil) 0 .mdl) 1 (.ip 11)) 11 (.set 0)) 2 (.ip 12)) 12 (.set 2)) 13 (.rp 0)) 14 (.rp 1), 4, rfl, rfl, rfl, rfl, fun D hD => ?_⟩
      have d1 : D 1 = (.ip 11) := (hD 1 (by omega)).trans rfl
      have d11 : D 11 = (.set 0) := (hD 11 (by omega)).trans rfl
      have d2 : D 2 = (.ip 12) := (hD 2 (by omega)).trans rfl
      have d12 : D 12 = (.set 2) := (hD 12 (by omega)).trans rfl
      have d13 : D 13 = (.rp 0) := (hD 13 (by omega)).trans rfl
      have d14 : D 14 = (.rp 1) := (hD 14 (by omega)).trans rfl
      constructor <;> simp [read, readN, argsOf, d1, d11, d2, d12, d13, d14]
    · refine ⟨put (put (put (put (put (put (put (put (fun _ => .nil) 0 .mdl) 1 (.ip 11)) 11 (.set 1)) 12 (.vl 0)) 2 (.ip 13)) 13 (.set 2)) 14 (.rp 0)) 15 (.rp 1), 5, rfl, rfl, rfl, rfl, fun D hD => ?_⟩
      have d1 : D 1 = (.ip 11) := (hD 1 (by omega)).trans rfl
      have d11 : D 11 = (.set 1) := (hD 11 (by omega)).trans rfl
      have d12 : D 12 = (.vl 0) := (hD 12 (by omega)).trans rfl
      have d2 : D 2 = (.ip 13) := (hD 2 (by omega)).trans rfl
      have d13 : D 13 = (.set 2) := (hD 13 (by omega)).trans rfl
      have d14 : D 14 = (.rp 0) := (hD 14 (by omega)).trans rfl
      have d15 : D 15 = (.rp 1) := (hD 15 (by omega)).trans rfl
      constructor <;> simp [read, readN, argsOf, d1, d11, d12, d2, d13, d14, d15]

theorem premise_eq {n : Nat} (V : Vars) {b : Builder} (ha : Asked n b) : premise (head n) V b = premiseOf n V := by
  obtain ⟨C, u, h, -, h1, h11, -⟩ := head_read n 0 0 0
  rw [h]
  have key : (match C tplArgs with
      | .ip i => if C i = .set 0 then V else { V with q0 := 0, t0 := 1, t1 := 2 }
      | _ => { V with q0 := 0, t0 := 1, t1 := 2 }) = premiseOf n V := by
    rw [tplArgs, h1]
    simp only [h11, premiseOf, Cell.set.injEq]
    by_cases e : n = 0
    · rw [if_pos (by rw [e]; rfl), if_pos e]
    · rw [if_neg (by split <;> omega), if_neg e]
  cases b with
  | bwdArg p off a => rw [premiseOf, if_neg ha]; rfl
  | _ => exact key

/-- What is missing of `C177_full`: `Sound`. -/
theorem C177_layout_partial (n : Nat) (V : Vars) (b : Builder) (lhs rhs out : Nat) (cmdRefs : List Nat) (ha : Asked n b)
    (hs : Sound (premiseOf n V) b) : C177At n V b lhs rhs out cmdRefs := by
  intro bwd hb
  obtain ⟨C, u, h, h0, h1, h11, hr⟩ := head_read n lhs rhs out
  obtain ⟨C', e, e', hB, he, hF, hG⟩ := build_read C u 0 (premiseOf n V) [lhs, rhs, out] cmdRefs b hs bwd hb
  have hD : build n V b = tail ⟨C', e, e'⟩ := by
    simp only [build, premise_eq V ha]
    rw [h, hB]
  rw [hD]
  have hC : ∀ i, i < 5 ∨ (10 < i ∧ i ≤ e) → tail ⟨C', e, e'⟩ i = C' i := by
    intro i hi
    simp only [tail, part_mk, write_mk, put, outGrps, arity]
    repeat rw [if_neg (by omega)]
  obtain ⟨r3, r4⟩ := hG _ fun i hi => hC i (by omega)
  obtain ⟨r1, r2⟩ := hr (tail ⟨C', e, e'⟩) fun i hi => by
    rw [hC i (by omega), hF i (by omega) (by omega) (by omega)]
  have d0 : tail ⟨C', e, e'⟩ 0 = .mdl := by rw [hC 0 (by omega), hF 0 (by omega) (by omega) (by omega), h0]
  have r5 : read (tail ⟨C', e, e'⟩) [lhs, rhs, out] 9 5 = some (.app .set [.ref out]) := by
    have a : tail ⟨C', e, e'⟩ 5 = .ip (e + 1) := by
      simp only [tail, part_mk, write_mk, put, outGrps, arity]
      repeat rw [if_neg (by omega)]
      simp
    have b : tail ⟨C', e, e'⟩ (e + 1) = .set 1 := by
      simp only [tail, part_mk, write_mk, put, outGrps, arity]
      repeat rw [if_neg (by omega)]
      simp
    have c : tail ⟨C', e, e'⟩ (e + 1 + 1) = .rp 2 := by
      simp only [tail, part_mk, write_mk, put, outGrps, arity]
      repeat rw [if_neg (by omega)]
      simp
    simp only [read, readN, a, b, c]
    rfl
  have rn : ∀ i x, tail ⟨C', e, e'⟩ i = .num x → read (tail ⟨C', e, e'⟩) [lhs, rhs, out] 9 i = some (.num x) := by
    intro i x hx
    rw [read, hx]
  rw [read, d0]
  simp only [readN, Nat.reduceAdd, r1, r2, r3, r4, r5, rn 6 0 rfl, rn 7 1 rfl, rn 8 1 rfl, rn 9 1 rfl, rn 10 1 rfl]
  rfl

/-- The variables of the patterns: 3 and 4 the times of the right-hand side, 6 and 7 those of the left-hand side. -/
def V₁ : Vars := { q0 := 0, t0 := 1, t1 := 2, q1 := 5, t2 := 3, t3 := 4, s := 8, s0 := 6, s1 := 7 }

/-- A guard backward of a model. -/
def guardAt (j : Nat) : Tree → Option Tree
  | .app _ (_ :: _ :: _ :: .app _ gs :: _) => gs[j]?
  | _ => none

def target : Tree → Option Nat
  | .asg v _ => some v
  | _ => none

def member : Tree → Option Nat
  | .asg _ (.app _ [.ref o]) => some o
  | _ => none

/-- What `C177_full` asks for and is not so:
* of a constant difference, the times of the left-hand side are not assigned, those of the right-hand side are, from themselves;
* a model of a command with an argument that is neither an object nor a number cannot be read;
* an object that refers to another one refers to one of the objects of the model once it is in the guard. -/
theorem C177_layout_violated : ¬ C177_full ∧
    ((read (build 0 V₁ (.const false 10 5 3)) [20, 21, 22] 10 0).bind (guardAt 2)).bind target = some V₁.t2 ∧
    ((read (build 3 V₁ (.bwdArg 10 5 (.word (.other 7)))) [20, 21, 22] 10 0).isNone = true ∧
      (bwdOf V₁ [77] (.bwdArg 10 5 (.word (.other 7)))).isSome = true) ∧
    ((read (build 3 V₁ (.bwdArg 10 5 (.obj 1 [.rp 0]))) [20, 21, 22] 10 0).bind (guardAt 4)).bind member = some 20 ∧
    ((bwdOf V₁ [77] (.bwdArg 10 5 (.obj 1 [.rp 0]))).bind (·[4]?)).bind member = some 77 := by
  have w : ((read (build 0 V₁ (.const false 10 5 3)) [20, 21, 22] 10 0).bind (guardAt 2)).bind target = some V₁.t2 := by
    decide +kernel
  refine ⟨fun h => ?_, w, by decide +kernel, by decide +kernel, by decide +kernel⟩
  have e := h 0 V₁ (.const false 10 5 3) 20 21 22 [] trivial _ rfl
  rw [e] at w
  exact absurd w (by decide +kernel)

/-- A model of three variables of a command with a number, one of a command with an object, and one of speeds are as
`C177_layout_partial` asks. -/
theorem C177_nonvacuous :
    (Asked 3 (.bwdArg 10 5 (.num 4)) ∧ Sound (premiseOf 3 V₁) (.bwdArg 10 5 (.num 4)) ∧
      ∃ bwd, bwdOf (premiseOf 3 V₁) [] (.bwdArg 10 5 (.num 4)) = some bwd ∧ bwd.length = 5) ∧
    (Asked 3 (.bwdArg 10 5 (.obj 1 [.num 4, .num 6])) ∧ Sound (premiseOf 3 V₁) (.bwdArg 10 5 (.obj 1 [.num 4, .num 6])) ∧
      ∃ bwd, bwdOf (premiseOf 3 V₁) [] (.bwdArg 10 5 (.obj 1 [.num 4, .num 6])) = some bwd ∧ bwd.length = 5) ∧
    (Asked 0 (.speed 10 5) ∧ Sound (premiseOf 0 V₁) (.speed 10 5) ∧
      ∃ bwd, bwdOf (premiseOf 0 V₁) [] (.speed 10 5) = some bwd ∧ bwd.length = 5) := by
  refine ⟨⟨nofun, trivial, _, rfl, rfl⟩, ⟨nofun, ?_, _, rfl, rfl⟩, ⟨trivial, trivial, _, rfl, rfl⟩⟩
  intro x hx
  simp at hx
  rcases hx with rfl | rfl <;> trivial

end Verif.Lay
