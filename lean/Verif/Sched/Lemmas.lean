import Verif.Sched.Model
import Mathlib.Data.List.Basic
/-! Proof internals for the diagnostic-time loop. -/
namespace Verif.Sched

/-- Order of execution: earlier target, then earlier submission. -/
def Before (a b : Job) : Prop := a.target < b.target ∨ (a.target = b.target ∧ a.seq < b.seq)

/-- Jobs waiting: in the ordered queue or still in the memory's queue. -/
def pendingT (s : St) : List Job := s.ordered ++ s.memT
/-- Reduction jobs waiting, oldest first. -/
def pendingR (s : St) : List Nat := s.loc.drop s.idx ++ s.memR

theorem insert_perm (j : Job) (l : List Job) : (insert j l).Perm (j :: l) := by
  induction l with
  | nil => exact List.Perm.refl _
  | cons a l ih =>
    simp only [insert]
    split
    · exact List.Perm.refl _
    · exact (ih.cons a).trans (List.Perm.swap j a l)

theorem mem_insert {j x : Job} {l : List Job} : x ∈ insert j l ↔ x = j ∨ x ∈ l := by
  rw [(insert_perm j l).mem_iff, List.mem_cons]

theorem insert_sorted {j : Job} {l : List Job} (hl : l.Pairwise Before)
    (hj : ∀ a ∈ l, a.seq < j.seq) : (insert j l).Pairwise Before := by
  induction l with
  | nil => simp [insert]
  | cons a l ih =>
    obtain ⟨h1, h2⟩ := List.pairwise_cons.mp hl
    simp only [insert]
    split
    · rename_i hlt
      refine List.pairwise_cons.mpr ⟨?_, hl⟩
      intro b hb
      rcases List.mem_cons.mp hb with rfl | hb
      · exact Or.inl hlt
      · rcases h1 b hb with h | h
        · exact Or.inl (by omega)
        · exact Or.inl (by omega)
    · rename_i hge
      refine List.pairwise_cons.mpr ⟨?_, ih h2 fun b hb => hj b (List.mem_cons_of_mem _ hb)⟩
      intro b hb
      rcases mem_insert.mp hb with rfl | hb
      · have := hj a (by simp)
        rcases Int.lt_or_eq_of_le (Int.not_lt.mp hge) with h | h
        · exact Or.inl h
        · exact Or.inr ⟨h, this⟩
      · exact h1 b hb

theorem insertAll_perm (l q : List Job) :
    (l.foldl (fun q j => insert j q) q).Perm (q ++ l) := by
  induction l generalizing q with
  | nil => simp
  | cons a l ih =>
    refine (ih _).trans ?_
    refine (List.Perm.append_right l (insert_perm a q)).trans ?_
    simp only [List.cons_append]
    exact List.perm_middle.symm

theorem insertAll_sorted {l q : List Job} (hq : q.Pairwise Before)
    (hl : l.Pairwise fun a b => a.seq < b.seq) (h : ∀ a ∈ q, ∀ b ∈ l, a.seq < b.seq) :
    (l.foldl (fun q j => insert j q) q).Pairwise Before := by
  induction l generalizing q with
  | nil => exact hq
  | cons a l ih =>
    obtain ⟨h1, h2⟩ := List.pairwise_cons.mp hl
    refine ih (insert_sorted hq fun b hb => h b hb a (by simp)) h2 ?_
    intro x hx b hb
    rcases mem_insert.mp hx with rfl | hx
    · exact h1 b hb
    · exact h x hx b (List.mem_cons_of_mem _ hb)

theorem mem_mkJobs {n : Nat} {ts : List Int} {j : Job} (h : j ∈ mkJobs n ts) :
    n ≤ j.seq ∧ j.seq < n + ts.length ∧ j.target ∈ ts := by
  simp only [mkJobs, List.mem_map] at h
  obtain ⟨⟨t, k⟩, hm, rfl⟩ := h
  have h1 := List.le_snd_of_mem_zipIdx hm
  have h2 := List.snd_lt_add_of_mem_zipIdx hm
  have h3 := List.fst_mem_of_mem_zipIdx hm
  exact ⟨h1, by simpa [Nat.add_comm] using h2, h3⟩

theorem mkJobs_targets (n : Nat) (ts : List Int) : (mkJobs n ts).map Job.target = ts := by
  simp only [mkJobs, List.map_map]
  have : (Job.target ∘ fun p : Int × Nat => (⟨p.1, p.2⟩ : Job)) = Prod.fst := rfl
  rw [this, List.zipIdx_map_fst]

theorem mkJobs_sorted (n : Nat) (ts : List Int) :
    (mkJobs n ts).Pairwise fun a b => a.seq < b.seq := by
  induction ts generalizing n with
  | nil => simp [mkJobs]
  | cons t l ih =>
    have e : mkJobs n (t :: l) = ⟨t, n⟩ :: mkJobs (n + 1) l := by simp [mkJobs, List.zipIdx_cons]
    rw [e]
    refine List.pairwise_cons.mpr ⟨?_, ih (n + 1)⟩
    intro b hb
    have := (mem_mkJobs hb).1
    show n < b.seq
    omega

structure Inv (s : St) : Prop where
  sorted : s.ordered.Pairwise Before
  memSorted : s.memT.Pairwise fun a b => a.seq < b.seq
  cross : ∀ a ∈ s.ordered, ∀ b ∈ s.memT, a.seq < b.seq
  bound : ∀ a ∈ pendingT s, a.seq < s.next
  period : 0 < s.period
  low : s.tick ≤ s.now
  high : s.now < s.tick + s.period
  need : s.need = true → s.now = s.tick
  idx : s.idx ≤ min s.loc.length maxRed

theorem push_inv {s : St} (i : In) (h : Inv s) : Inv (push s i) := by
  obtain ⟨h1, h2, h3, h4, h5, h6, h7, h8, h9⟩ := h
  refine ⟨h1, ?_, ?_, ?_, h5, h6, h7, h8, h9⟩
  · show (s.memT ++ mkJobs s.next i.pushT).Pairwise _
    rw [List.pairwise_append]
    refine ⟨h2, mkJobs_sorted _ _, ?_⟩
    intro a ha b hb
    have := h4 a (by simp [pendingT, ha])
    have := (mem_mkJobs hb).1
    omega
  · intro a ha b hb
    rcases List.mem_append.mp hb with hb | hb
    · exact h3 a ha b hb
    · have := h4 a (by simp only [pendingT, List.mem_append]; exact Or.inl ha)
      have := (mem_mkJobs hb).1
      omega
  · intro a ha
    show a.seq < s.next + i.pushT.length
    simp only [pendingT, push, List.mem_append] at ha
    rcases ha with ha | ha | ha
    · have := h4 a (by simp [pendingT, ha]); omega
    · have := h4 a (by simp [pendingT, ha]); omega
    · exact (mem_mkJobs ha).2.1

/-- The part of the state the reduction phase does not touch. -/
theorem inv_of {s s' : St} (h : Inv s) (e1 : s'.ordered = s.ordered) (e2 : s'.memT = s.memT)
    (e3 : s'.next = s.next) (e4 : s'.period = s.period) (e5 : s'.tick = s.tick) (e6 : s'.now = s.now)
    (e7 : s'.need = s.need) (e8 : s'.idx ≤ min s'.loc.length maxRed) : Inv s' := by
  obtain ⟨h1, h2, h3, h4, h5, h6, h7, h8, h9⟩ := h
  refine ⟨by rw [e1]; exact h1, by rw [e2]; exact h2, by rw [e1, e2]; exact h3, ?_,
    by rw [e4]; exact h5, by rw [e5, e6]; exact h6, by rw [e4, e5, e6]; exact h7,
    by rw [e7, e6, e5]; exact h8, e8⟩
  intro a ha
  rw [e3]
  exact h4 a (by simpa only [pendingT, e1, e2] using ha)

/-- What the reduction phase does, in terms of waiting jobs. -/
theorem redPhase_spec {s : St} (i : In) (h : Inv s) :
    match redPhase s i with
    | .inl (s', e) =>
        Inv s' ∧ s'.now = s.now ∧ s'.tick = s.tick ∧ s'.period = s.period ∧ s'.endTime = s.endTime ∧
        s'.need = s.need ∧
        ((∃ j, e = .reduction j ∧ pendingT s' = pendingT s ++ mkJobs s.next i.pushT ∧
            ∃ rest, pendingR s = j :: rest ∧ pendingR s' = rest ++ List.range' s.nextR i.pushR) ∨
         (e = .pass ∧ pendingT s' = pendingT s ∧ pendingR s' = pendingR s))
    | .inr s' =>
        Inv s' ∧ s'.now = s.now ∧ s'.tick = s.tick ∧ s'.period = s.period ∧ s'.endTime = s.endTime ∧
        s'.need = s.need ∧ s'.ordered = s.ordered ∧ s'.memT = s.memT ∧ s'.next = s.next ∧
        s'.nextR = s.nextR ∧ pendingR s' = pendingR s := by
  unfold redPhase
  by_cases hp : s.pass ≤ 100
  · rw [if_pos hp]
    -- the transfer
    have ht : ∃ s1 : St, (if s.idx = 0 then { s with loc := s.loc ++ s.memR, memR := [] } else s) = s1 ∧
        Inv s1 ∧ s1.now = s.now ∧ s1.tick = s.tick ∧ s1.period = s.period ∧ s1.endTime = s.endTime ∧
        s1.need = s.need ∧ s1.ordered = s.ordered ∧ s1.memT = s.memT ∧ s1.next = s.next ∧
        s1.nextR = s.nextR ∧ pendingR s1 = pendingR s := by
      by_cases h0 : s.idx = 0
      · rw [if_pos h0]
        refine ⟨_, rfl, inv_of h rfl rfl rfl rfl rfl rfl rfl ?_, rfl, rfl, rfl, rfl, rfl, rfl, rfl, rfl,
          rfl, ?_⟩
        · simp [h0]
        · simp [pendingR, h0]
      · rw [if_neg h0]
        exact ⟨s, rfl, h, rfl, rfl, rfl, rfl, rfl, rfl, rfl, rfl, rfl, rfl⟩
    obtain ⟨s1, e1, i1, g1, g2, g3, g4, g5, g6, g7, g8, g9, g10⟩ := ht
    rw [e1]
    simp only
    by_cases hn : min s1.loc.length maxRed > 0
    · rw [if_pos hn]
      by_cases hi : s1.idx < min s1.loc.length maxRed
      · rw [if_pos hi]
        have hlen : s1.idx < s1.loc.length := by omega
        refine ⟨push_inv i (inv_of i1 rfl rfl rfl rfl rfl rfl rfl (by show s1.idx + 1 ≤ min s1.loc.length maxRed; omega)),
          g1, g2, g3, g4, g5, Or.inl ⟨_, rfl, ?_, s1.loc.drop (s1.idx + 1) ++ s1.memR, ?_, ?_⟩⟩
        · simp only [pendingT, push, g6, g7, g8, List.append_assoc]
        · rw [← g10, pendingR, List.drop_eq_getElem_cons hlen, List.getD_eq_getElem?_getD,
            List.getElem?_eq_getElem hlen]; rfl
        · simp only [pendingR, push, g9, List.append_assoc]
      · rw [if_neg hi]
        have hidx : s1.idx = min s1.loc.length maxRed := by have := i1.idx; omega
        have hloc : (if s1.loc.length > maxRed then s1.loc.drop maxRed else []) = s1.loc.drop s1.idx := by
          rw [hidx]
          split
          · rw [Nat.min_eq_right (by omega)]
          · rw [Nat.min_eq_left (by omega), List.drop_length]
        rw [hloc]
        have hR : ∀ s' : St, s'.loc = s1.loc.drop s1.idx → s'.idx = 0 → s'.memR = s1.memR →
            pendingR s' = pendingR s := by
          intro s' q1 q2 q3
          rw [← g10, pendingR, pendingR, q1, q2, q3, List.drop_zero]
        by_cases hlt : s1.nRed + min s1.loc.length maxRed < maxRed
        · rw [if_pos hlt]
          refine ⟨inv_of i1 rfl rfl rfl rfl rfl rfl rfl (by simp), g1, g2, g3, g4, g5,
            Or.inr ⟨rfl, ?_, hR _ rfl rfl rfl⟩⟩
          simp only [pendingT, g6, g7]
        · rw [if_neg hlt]
          exact ⟨inv_of i1 rfl rfl rfl rfl rfl rfl rfl (by simp), g1, g2, g3, g4, g5, g6, g7, g8, g9,
            hR _ rfl rfl rfl⟩
    · rw [if_neg hn]
      exact ⟨i1, g1, g2, g3, g4, g5, g6, g7, g8, g9, g10⟩
  · rw [if_neg hp]
    exact ⟨h, rfl, rfl, rfl, rfl, rfl, rfl, rfl, rfl, rfl, rfl⟩

theorem transfer_inv {s : St} (h : Inv s) : Inv (transfer s) := by
  have hp := insertAll_perm s.memT s.ordered
  refine ⟨insertAll_sorted h.sorted h.memSorted h.cross, by simp [transfer], by simp [transfer], ?_,
    h.period, h.low, h.high, h.need, h.idx⟩
  intro a ha
  simp only [pendingT, transfer, List.append_nil] at ha
  exact h.bound a (hp.mem_iff.mp ha)

theorem transfer_pending (s : St) : (transfer s).ordered.Perm (pendingT s) :=
  insertAll_perm s.memT s.ordered

theorem maybeTick_inv {s : St} (h : Inv s) : Inv (maybeTick s) := by
  unfold maybeTick
  split
  · exact ⟨h.sorted, h.memSorted, h.cross, h.bound, h.period, Int.le_refl _,
      by have := h.period; show s.tick + s.period < s.tick + s.period + s.period; omega,
      fun _ => rfl, h.idx⟩
  · exact h

/-- A sorted queue: its front comes before all others. -/
theorem front_before {j : Job} {rest l : List Job} (hs : (j :: rest).Pairwise Before)
    (hp : (j :: rest).Perm l) : j ∈ l ∧ ∀ k ∈ l, k ≠ j → Before j k := by
  refine ⟨hp.mem_iff.mp (by simp), ?_⟩
  intro k hk hne
  rcases List.mem_cons.mp (hp.mem_iff.mpr hk) with rfl | hk
  · exact absurd rfl hne
  · exact (List.pairwise_cons.mp hs).1 k hk

theorem front_target {j : Job} {rest l : List Job} (hs : (j :: rest).Pairwise Before)
    (hp : (j :: rest).Perm l) : ∀ k ∈ l, j.target ≤ k.target := by
  intro k hk
  by_cases h : k = j
  · rw [h]; exact Int.le_refl _
  · rcases (front_before hs hp).2 k hk h with h | h <;> omega

end Verif.Sched
