import Verif.Lifetime.Model
import Verif.ViewCtl.Props
import Verif.Upr.Props
import Verif.F32.Order
/-!
# C70, C71: time to live
-/
namespace Verif.Lifetime
open Verif.F32 Verif.ViewCtl Verif.Upr

/-- A view injected at `now` with resilience `res` into a group with that update period disappears at the
first update of the group at or after `now + ttl`. -/
def LivesFor (ref base : Int) (upr : Nat) (now ttl : Int) (res : Int) : Prop :=
  ∃ n, DiesAt single (newRes single res) (n + 1) ∧
    (∀ t, plannedTime ref base upr now n = some t → now + ttl ≤ t) ∧
    (∀ k t, k < n → plannedTime ref base upr now k = some t → t < now + ttl)

/-- C70 in full: whatever the group, the instant and the time to live. -/
def C70_full : Prop :=
  ∀ (ref base : Int) (upr : Nat) (now ttl : Int), 0 < base → 0 < upr → ref ≤ now → 0 < ttl →
    now + ttl - ref < 2 ^ 63 → upr * base < 2 ^ 63 →
    LivesFor ref base upr now ttl (viewRes ref base upr now ttl) ∧
    LivesFor ref base upr now ttl (goalRes ref upr now ttl)

theorem DiesAt.unique {A : Arith} {r : Res} {n m : Nat} (h : DiesAt A r n) (h' : DiesAt A r m) : n = m := by
  rcases Nat.lt_trichotomy n m with e | e | e
  · exact absurd h.1 (by rw [h'.2 n e]; simp)
  · exact e
  · exact absurd h'.1 (by rw [h.2 m e]; simp)

/-- Updates planned between `a` and `b` (both counted from the reference): those in `(a, b)`, plus one. -/
def periods (a b u : Nat) : Nat := (b + (u - 1)) / u - a / u

theorem getResilience_eq {ref now ttl : Int} {u : Nat} (hu : 0 < u) (hn : ref ≤ now) (ht : 0 < ttl)
    (hb : now + ttl - ref < 2 ^ 63)
    (hp : periods (now - ref).toNat (now + ttl - ref).toNat u < 2 ^ 31) :
    getResilience ref now ttl u = periods (now - ref).toNat (now + ttl - ref).toNat u := by
  unfold getResilience
  rw [if_neg (by omega)]
  obtain ⟨a, ha⟩ : ∃ a : Nat, now - ref = a := ⟨(now - ref).toNat, by omega⟩
  obtain ⟨b, hb'⟩ : ∃ b : Nat, now + ttl - ref = b := ⟨(now + ttl - ref).toNat, by omega⟩
  have hab : a < b := by omega
  have hbb : b < 2 ^ 63 := by omega
  rw [ha, hb'] at hp ⊢
  have e1 : u64 (a : Int) = a := by unfold u64; omega
  have e2 : u64 (b : Int) = b := by unfold u64; omega
  simp only [e1, e2, Int.toNat_natCast] at hp ⊢
  have h1 : b / u ≤ b := Nat.div_le_self _ _
  have h2 : a / u ≤ b / u := Nat.div_le_div_right (by omega)
  have ediv : (b + (u - 1)) / u = b / u + if b % u > 0 then 1 else 0 := by
    have hd := Nat.div_add_mod b u
    have hm := Nat.mod_lt b hu
    split
    · rw [show b + (u - 1) = (b % u - 1) + u * (b / u + 1) by rw [Nat.mul_add]; omega,
        Nat.add_mul_div_left _ _ hu, Nat.div_eq_of_lt (by omega)]
      omega
    · rw [show b + (u - 1) = (u - 1) + u * (b / u) by omega, Nat.add_mul_div_left _ _ hu,
        Nat.div_eq_of_lt (by omega)]
      omega
  unfold periods at hp ⊢
  rw [ediv] at hp ⊢
  split at hp
  · rw [if_pos ‹_›, if_pos ‹_›]
    rw [Nat.mod_eq_of_lt (by omega : b / u + 1 < 2 ^ 64),
      show b / u + 1 + (2 ^ 64 - a / u) = (b / u + 1 - a / u) + 2 ^ 64 by omega, Nat.add_mod_right,
      Nat.mod_eq_of_lt (by omega)]
    unfold i32
    rw [Int.bmod_eq_of_le (by omega) (by omega)]
  · rw [if_neg ‹_›, if_neg ‹_›]
    rw [show b / u + (2 ^ 64 - a / u) = (b / u - a / u) + 2 ^ 64 by omega, Nat.add_mod_right,
      Nat.mod_eq_of_lt (by omega)]
    unfold i32
    rw [Int.bmod_eq_of_le (by omega) (by omega)]
    simp

theorem planned_eq {ref base : Int} {upr : Nat} {now : Int} (hb : 0 < base) (hu : 0 < upr) (hn : ref ≤ now)
    (k : Nat) :
    plannedTime ref base upr now k =
      some (ref + ((now - ref) / (upr * base) + 1 + k) * (upr * base)) := by
  obtain ⟨t, e, _, ht⟩ := C25_chain ref base upr now hb hu hn k
  rw [e, ht]
  have hup : (0 : Int) < upr * base := Int.mul_pos (by exact_mod_cast hu) hb
  have h0 : 0 ≤ now - ref := by omega
  have hd : (now - ref).tmod (upr * base) = (now - ref) % (upr * base) := Int.tmod_eq_emod_of_nonneg h0
  have h3 := Int.mul_ediv_add_emod (now - ref) (upr * base)
  have : nextUprTime ref base upr now = now - (now - ref) % (upr * base) + upr * base := by
    simp only [nextUprTime, Nat.pos_iff_ne_zero.mp hu, if_false]
    rw [← hd]
  rw [this]
  congr 1
  generalize (upr * base : Int) = u at *
  generalize (now - ref) / u = q at *
  generalize (now - ref) % u = d at *
  have : now = ref + u * q + d := by omega
  rw [this]; ring

/-- The first update at or after the deadline is number `periods`. -/
theorem lives_of_periods {ref base : Int} {upr : Nat} {now ttl : Int} (hb : 0 < base) (hu : 0 < upr)
    (hn : ref ≤ now) (ht : 0 < ttl) {u : Nat} (hue : (u : Int) = upr * base) {res : Int}
    (hres : res = periods (now - ref).toNat (now + ttl - ref).toNat u) (hsmall : res ≤ 2 ^ 23) :
    LivesFor ref base upr now ttl res := by
  have hup : 0 < u := by
    have : (0 : Int) < upr * base := Int.mul_pos (by exact_mod_cast hu) hb
    omega
  obtain ⟨a, ha⟩ : ∃ a : Nat, now - ref = a := ⟨(now - ref).toNat, by omega⟩
  obtain ⟨b, hb'⟩ : ∃ b : Nat, now + ttl - ref = b := ⟨(now + ttl - ref).toNat, by omega⟩
  have hab : a < b := by omega
  rw [ha, hb', Int.toNat_natCast, Int.toNat_natCast] at hres
  unfold periods at hres
  have hda := Nat.div_add_mod a u
  have hma := Nat.mod_lt a hup
  have hdb := Nat.div_add_mod (b + (u - 1)) u
  have hmb := Nat.mod_lt (b + (u - 1)) hup
  set p := (b + (u - 1)) / u with hp
  set q := a / u with hq
  have hpq : q < p := by
    by_contra hc
    have : u * p ≤ u * q := Nat.mul_le_mul_left u (by omega)
    omega
  obtain ⟨n, hn'⟩ : ∃ n, p - q = n + 1 := ⟨p - q - 1, by omega⟩
  rw [hn'] at hres
  have hpe : p = q + (n + 1) := by omega
  have epl : ∀ k, plannedTime ref base upr now k = some (ref + ((q + 1 + k : Nat) : Int) * (u : Int)) := by
    intro k
    rw [planned_eq hb hu hn k, ← hue, ha]
    congr 2
  refine ⟨n, ?_, ?_, ?_⟩
  · rw [hres]
    exact C22_resilience_partial.1 (n + 1) (by omega) (by omega)
  · intro t e
    rw [epl] at e
    have e := Option.some.inj e
    have : (((q + 1 + n : Nat) : Int) * (u : Int)) = ((u * p : Nat) : Int) := by
      rw [hpe]; push_cast; ring
    rw [this] at e
    have : b ≤ u * p := by omega
    omega
  · intro k t hk e
    rw [epl] at e
    have e := Option.some.inj e
    have h1 : u * (q + 1 + k) ≤ u * (p - 1) := Nat.mul_le_mul_left u (by omega)
    have h2 : u * (p - 1) + u = u * p := by
      rw [← Nat.mul_succ, show (p - 1).succ = p from by clear_value p q; omega]
    have : (((q + 1 + k : Nat) : Int) * (u : Int)) = ((u * (q + 1 + k) : Nat) : Int) := by
      push_cast; ring
    rw [this] at e
    omega

/-- C70, the part that holds: programs and productions of composite states live until the first update at
or after the end of their time to live, if these are at most 2^23 updates; goals and predictions do if
moreover the base period is one microsecond.
Missing: goals and predictions otherwise; longer lives. -/
theorem C70_lifetime_partial (ref base : Int) (upr : Nat) (now ttl : Int) (hb : 0 < base) (hu : 0 < upr)
    (hn : ref ≤ now) (ht : 0 < ttl) (hl : now + ttl - ref < 2 ^ 63) (hup : upr * base < 2 ^ 63)
    (hshort : ttl ≤ (2 ^ 23 - 1) * (upr * base)) :
    LivesFor ref base upr now ttl (viewRes ref base upr now ttl) ∧
    (base = 1 → LivesFor ref base upr now ttl (goalRes ref upr now ttl)) := by
  have hpos : (0 : Int) < upr * base := Int.mul_pos (by exact_mod_cast hu) hb
  obtain ⟨u, hue⟩ : ∃ u : Nat, (u : Int) = upr * base := ⟨(upr * base : Int).toNat, by omega⟩
  have hu64 : u64 (upr * base) = u := by unfold u64; omega
  have hupos : 0 < u := by omega
  rw [← hue] at hshort
  have hcount : periods (now - ref).toNat (now + ttl - ref).toNat u ≤ 2 ^ 23 := by
    obtain ⟨a, ha⟩ : ∃ a : Nat, now - ref = a := ⟨(now - ref).toNat, by omega⟩
    obtain ⟨b, hb'⟩ : ∃ b : Nat, now + ttl - ref = b := ⟨(now + ttl - ref).toNat, by omega⟩
    rw [ha, hb', Int.toNat_natCast, Int.toNat_natCast]
    have hba : b ≤ a + (2 ^ 23 - 1) * u := by
      have : (b : Int) ≤ a + ((2 ^ 23 - 1) * u : Int) := by omega
      have h2 : (((2 ^ 23 - 1) * u : Nat) : Int) = ((2 ^ 23 - 1) * u : Int) := by push_cast; ring
      omega
    unfold periods
    have hda := Nat.div_add_mod a u
    have hma := Nat.mod_lt a hupos
    have : (b + (u - 1)) / u ≤ a / u + 2 ^ 23 := by
      rw [Nat.div_le_iff_le_mul_add_pred hupos]
      have : u * (a / u + 2 ^ 23) = u * (a / u) + 2 ^ 23 * u := by ring
      omega
    omega
  refine ⟨lives_of_periods hb hu hn ht hue ?_ ?_, fun h1 => ?_⟩
  · unfold viewRes; rw [hu64, getResilience_eq hupos hn ht hl (by omega)]
  · unfold viewRes; rw [hu64, getResilience_eq hupos hn ht hl (by omega)]; omega
  · have : u = upr := by rw [h1] at hue; omega
    have e : goalRes ref upr now ttl = getResilience ref now ttl u := by
      unfold goalRes; rw [if_neg (by omega), this]
    exact lives_of_periods hb hu hn ht hue (by rw [e, getResilience_eq hupos hn ht hl (by omega)])
      (by rw [e, getResilience_eq hupos hn ht hl (by omega)]; omega)

/-- C70 without time to live: gone at the first update. -/
theorem C70_no_time (ref base : Int) (upr : Nat) (now : Int) (hb : 0 < base) (hu : 0 < upr) (hn : ref ≤ now) :
    LivesFor ref base upr now 0 (viewRes ref base upr now 0) ∧
    LivesFor ref base upr now 0 (goalRes ref upr now 0) := by
  have hpos : (0 : Int) < upr * base := Int.mul_pos (by exact_mod_cast hu) hb
  have e1 : viewRes ref base upr now 0 = ((1 : Nat) : Int) := by
    unfold viewRes getResilience; rw [if_pos (.inl rfl)]; rfl
  have e2 : goalRes ref upr now 0 = ((1 : Nat) : Int) := by unfold goalRes; rw [if_pos rfl]; rfl
  have key : LivesFor ref base upr now 0 ((1 : Nat) : Int) := by
    refine ⟨0, C22_resilience_partial.1 1 (by norm_num) (by norm_num), fun t ht => ?_, fun k t hk => by omega⟩
    rw [planned_eq hb hu hn 0] at ht
    have ht := Option.some.inj ht
    have h1 := Int.mul_ediv_add_emod (now - ref) (upr * base)
    have h2 := Int.emod_lt_of_pos (now - ref) hpos
    generalize (upr * base : Int) = u at *
    generalize (now - ref) / u = q at *
    have : (q + 1 + ((0 : Nat) : Int)) * u = u * q + u := by push_cast; ring
    omega
  rw [e1, e2]
  exact ⟨key, key⟩

/-- With the base period of 50 ms, a goal to live 100 ms in a group updated at every period is still there
after 99999 updates, that is 5000 seconds; one to live 4294.967297 s is gone at the first update; one to live
2147.483648 s never disappears. -/
theorem C70_lifetime_violated :
    ¬ C70_full ∧
    DiesAt single (newRes single (goalRes 0 1 0 100000)) 100000 ∧
    DiesAt single (newRes single (goalRes 0 1 0 4294967297)) 1 ∧
    (∀ k, kept false (afterUpdates single (newRes single (goalRes 0 1 0 2147483648)) k) = true) := by
  have e : goalRes 0 1 0 100000 = ((100000 : Nat) : Int) := by decide
  have h1 : DiesAt single (newRes single (goalRes 0 1 0 100000)) 100000 := by
    rw [e]; exact C22_resilience_partial.1 100000 (by norm_num) (by norm_num)
  refine ⟨fun hC => ?_, h1, ?_, ?_⟩
  · obtain ⟨_, n, hd, _, hlt⟩ := hC 0 50000 1 0 100000 (by norm_num) (by norm_num) (by norm_num)
      (by norm_num) (by norm_num) (by norm_num)
    have hn : n + 1 = 100000 := DiesAt.unique hd h1
    have := hlt 5 _ (by omega) (planned_eq (by norm_num) (by norm_num) (by norm_num) 5)
    norm_num at this
  · have : goalRes 0 1 0 4294967297 = ((1 : Nat) : Int) := by decide
    rw [this]; exact C22_resilience_partial.1 1 (by norm_num) (by norm_num)
  · intro k
    have : goalRes 0 1 0 2147483648 < 0 := by decide
    have hn : newRes single (goalRes 0 1 0 2147483648) = ⟨.inf, 0, 0⟩ := by
      unfold newRes; rw [if_pos this]
    rw [hn, afterUpdates, Function.iterate_fixed (by rfl)]
    rfl

/-- The hypotheses of the partial theorem hold of a program to live 120 ms from 30 ms after the start, in a
group updated every 100 ms; it disappears at the second update, at 200 ms. -/
theorem C70_nonvacuous :
    LivesFor 0 50000 2 30000 120000 (viewRes 0 50000 2 30000 120000) ∧
    viewRes 0 50000 2 30000 120000 = 2 ∧ plannedTime 0 50000 2 30000 1 = some 200000 := by
  refine ⟨(C70_lifetime_partial 0 50000 2 30000 120000 (by norm_num) (by norm_num) (by norm_num) (by norm_num)
    (by norm_num) (by norm_num) (by norm_num)).1, by decide, by decide⟩

/-! ## C71 -/

/-- The resilience `r'` in the destination group stands for the life of `r` updates in the origin group: as
many periods of the destination as fit, at least one; without end if without end. -/
def SameLife (r : ResVal) (origin dest : Nat) (r' : Option Int) : Prop :=
  match r with
  | .inf => ∃ n, r' = some n ∧ n < 0
  | .fin x => ∃ n : Int, r' = some n ∧ 1 ≤ n ∧ x * origin < (n + 1) * dest ∧
      (n * dest ≤ x * origin ∨ n = 1)

/-- C71 in full. -/
def C71_full : Prop :=
  ∀ (r : ResVal) (origin dest : Nat), 0 < origin → 0 < dest →
    (∀ x, r = .fin x → 0 ≤ x ∧ x * origin < 2 ^ 31) → SameLife r origin dest (focusRes single r origin dest)

/-- A view with ten updates to live is given one in a group with the same period and one in a group updated
twice as often, where twenty would be right. A view without end is given one update there; in a slower group
the conversion of its resilience is undefined. -/
theorem C71_focus_violated :
    ¬ C71_full ∧
    focusRes single (.fin 10) 1 1 = some 1 ∧ ¬ SameLife (.fin 10) 1 1 (some 1) ∧
    focusRes single (.fin 10) 2 1 = some 1 ∧ ¬ SameLife (.fin 10) 2 1 (some 1) ∧
    focusRes single .inf 1 1 = some 1 ∧ focusRes single .inf 1 2 = none := by
  have h1 : ¬ SameLife (.fin 10) 1 1 (some 1) := by
    rintro ⟨n, hn, _, h, _⟩
    have := Option.some.inj hn
    subst this
    norm_num at h
  have h2 : ¬ SameLife (.fin 10) 2 1 (some 1) := by
    rintro ⟨n, hn, _, h, _⟩
    have := Option.some.inj hn
    subst this
    norm_num at h
  refine ⟨fun hC => h1 ?_, rfl, h1, rfl, h2, rfl, rfl⟩
  have := hC (.fin 10) 1 1 (by norm_num) (by norm_num) (by rintro x ⟨⟩; norm_num)
  exact this

/-- C71, the part that holds: into a slower group, in exact arithmetic, a view that does not live without
end keeps its life.
Missing: groups that are not slower, where the resilience is 1; views without end; rounding. -/
theorem C71_focus_partial (x : Rat) (origin dest : Nat) (ho : 0 < origin) (hd : origin < dest) (hx : 0 ≤ x)
    (hb : x * origin < 2 ^ 31) :
    SameLife (.fin x) origin dest (focusRes exact (.fin x) origin dest) := by
  unfold SameLife focusRes
  rw [if_neg (by omega), if_neg (by omega)]
  dsimp only [exact]
  have hd0 : (0 : Rat) < dest := by exact_mod_cast (by omega : 0 < dest)
  have ho0 : (0 : Rat) < origin := by exact_mod_cast ho
  have e : x * (origin / dest) = x * origin / dest := by ring
  rw [e]
  have hnn : 0 ≤ x * origin := by positivity
  by_cases h1 : x * origin / dest < 1
  · rw [if_pos h1]
    rw [div_lt_one hd0] at h1
    refine ⟨1, rfl, le_refl _, ?_, .inr rfl⟩
    push_cast; linarith
  · rw [if_neg h1]
    have h2 : x * origin / dest < 2 ^ 31 := by
      refine lt_of_le_of_lt (div_le_self hnn ?_) hb
      exact_mod_cast (by omega : 1 ≤ dest)
    rw [if_pos h2]
    have h1 : 1 ≤ x * origin / dest := by linarith
    have ht : trunc (x * origin / dest) = ⌊x * origin / dest⌋ := by
      unfold trunc; rw [if_pos (by linarith)]
    rw [ht]
    refine ⟨_, rfl, Int.le_floor.2 (by push_cast; exact h1), ?_, .inl ?_⟩
    · have := Int.lt_floor_add_one (x * origin / dest)
      rwa [div_lt_iff₀ hd0] at this
    · have := Int.floor_le (x * origin / dest)
      rwa [le_div_iff₀ hd0] at this

/-- Ten updates in a group with period 2 are six in one with period 3. -/
theorem C71_nonvacuous : focusRes exact (.fin 10) 2 3 = some 6 ∧ SameLife (.fin 10) 2 3 (some 6) := by
  have e : focusRes exact (.fin 10) 2 3 = some 6 := by
    unfold focusRes
    dsimp only [exact]
    norm_num [trunc]
  exact ⟨e, e ▸ C71_focus_partial 10 2 3 (by norm_num) (by norm_num) (by norm_num) (by norm_num)⟩

end Verif.Lifetime
