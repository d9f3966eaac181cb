import Verif.GroupViews.Model
import Mathlib.Data.List.Basic
import Mathlib.Data.List.Perm.Basic
import Mathlib.Data.List.Nodup
import Mathlib.Tactic.SplitIfs
/-!
# C55: iteration over the views of a group; C68: filing of views
-/
namespace Verif.GroupViews

/-- Every view is in the map that deletion looks in. -/
def Filed (m : Maps) : Prop := ∀ c, ∀ v ∈ m c, fileOf v = c

/-- No OID occurs twice in a map. -/
def Unique (m : Maps) : Prop := ∀ c, ((m c).map V.oid).Nodup

/-! ### Loops without changes -/

theorem visit_eq (m : Maps) : ∀ (segs : List Cat) (cur : Cat) (rem : List V) (f : Nat),
    rem.length + (segs.flatMap m).length < f → visit m f cur segs rem = some (rem ++ segs.flatMap m)
  | segs, cur, v :: rem, f, hf => by
    obtain ⟨f, rfl⟩ : ∃ g, f = g + 1 := ⟨f - 1, by omega⟩
    have hc : cond m cur segs (v :: rem) = some (cur, segs, v, rem) := by rw [cond]
    simp only [visit, hc]
    rw [visit_eq m segs cur rem f (by simp only [List.length_cons] at hf; omega)]
    rfl
  | [], cur, [], f, hf => by
    obtain ⟨f, rfl⟩ : ∃ g, f = g + 1 := ⟨f - 1, by omega⟩
    have hc : cond m cur [] [] = none := by rw [cond]
    simp only [visit, hc]
    rfl
  | c :: segs, cur, [], f, hf => by
    have hc : cond m cur (c :: segs) [] = cond m c segs (m c) := by rw [cond]
    have ih := visit_eq m segs c (m c) f (by
      simp only [List.flatMap_cons, List.length_append, List.length_nil] at hf; omega)
    obtain ⟨f, rfl⟩ : ∃ g, f = g + 1 := ⟨f - 1, by omega⟩
    simp only [visit] at ih ⊢
    rw [hc, ih]
    simp
termination_by segs _ rem _ _ => (segs.length, rem.length)

/-! ### The loop of the update -/

theorem insertNew_other (place : List V → V → List V) {cur : Cat} (h : cur ≠ .ntf) :
    ∀ (new : List V) (m : Maps), insertNew place m cur new =
      some (put m .ntf (new.foldl place (m .ntf)))
  | [], m => by
    simp only [insertNew, List.foldl_nil]
    congr 1
    funext d
    unfold put
    split_ifs with e
    · rw [e]
    · rfl
  | v :: vs, m => by
    simp only [insertNew, if_neg h]
    rw [insertNew_other place h vs]
    congr 1
    funext d
    unfold put
    by_cases e : d = .ntf <;> simp [e]

theorem foldl_place {place : List V → V → List V} (hp : ∀ l v, (place l v).Perm (v :: l)) :
    ∀ (new l : List V), (new.foldl place l).Perm (new ++ l)
  | [], l => List.Perm.refl _
  | v :: vs, l => by
    refine (foldl_place hp vs (place l v)).trans ?_
    refine ((hp l v).append_left vs).trans ?_
    exact (List.perm_middle)

theorem put_same (m : Maps) (c : Cat) (l : List V) : put m c l c = l := by simp [put]
theorem put_ne (m : Maps) {c d : Cat} (l : List V) (h : d ≠ c) : put m c l d = m d := by simp [put, h]

theorem erase_mid {v : V} : ∀ {passed : List V} (rem : List V), v ∉ passed →
    (passed ++ v :: rem).erase v = passed ++ rem
  | [], rem, _ => by simp
  | x :: passed, rem, h => by
    have hx : x ≠ v := fun e => h (by rw [e]; simp)
    rw [List.cons_append, List.erase_cons_tail (by simpa using hx),
      erase_mid rem (fun hm => h (List.mem_cons_of_mem _ hm))]
    rfl

theorem update_cons {place : List V → V → List V} {act : V → Act} (f : Nat) (m m' : Maps) (cur : Cat)
    (segs : List Cat) (v : V) (rem : List V) (hins : insertNew place m cur (act v).new = some m')
    (hfile : fileOf v = cur) :
    update place act (f + 1) m cur segs (v :: rem) =
      (update place act f (if (act v).keep then m' else put m' cur ((m' cur).erase v)) cur segs rem).map
        fun r => (v :: r.1, r.2) := by
  have hc : cond m cur segs (v :: rem) = some (cur, segs, v, rem) := by rw [cond]
  simp only [update, hc, hins, Option.bind_some]
  by_cases hk : (act v).keep = true
  · rw [if_pos hk, if_pos hk]
  · rw [if_neg hk, if_pos hfile, if_neg hk]

/-- The loop over one map other than that of notifications. -/
theorem stage {place : List V → V → List V} {act : V → Act} {cur : Cat} (hcur : cur ≠ .ntf)
    (segs : List Cat) (f : Nat) :
    ∀ (rem passed : List V) (m : Maps), m cur = passed ++ rem → (passed ++ rem).Nodup →
      (∀ v ∈ rem, fileOf v = cur) →
      update place act (f + rem.length) m cur segs rem =
        (update place act f (put (put m cur (passed ++ rem.filter fun v => (act v).keep)) .ntf
          ((rem.flatMap fun v => (act v).new).foldl place (m .ntf))) cur segs []).map
          fun r => (rem ++ r.1, r.2)
  | [], passed, m, hm, _, _ => by
    have : put (put m cur (passed ++ [].filter fun v => (act v).keep)) .ntf
        (([] : List V).flatMap (fun v => (act v).new) |>.foldl place (m .ntf)) = m := by
      funext d
      simp only [put, List.filter_nil, List.append_nil, List.flatMap_nil, List.foldl_nil]
      split_ifs with e1 e2
      · rw [e1]
      · rw [e2, hm, List.append_nil]
      · rfl
    rw [this]
    show update place act f m cur segs [] = _
    cases update place act f m cur segs [] <;> rfl
  | v :: rem, passed, m, hm, hn, hf => by
    have hv : fileOf v = cur := hf v (by simp)
    have hvp : v ∉ passed := by
      intro hmem
      exact (List.nodup_append.1 hn).2.2 v hmem v (by simp) rfl
    rw [List.length_cons, ← Nat.add_assoc,
      update_cons (f + rem.length) m _ cur segs v rem (insertNew_other place hcur _ m) hv]
    by_cases hk : (act v).keep = true
    · rw [if_pos hk]
      rw [stage hcur segs f rem (passed ++ [v]) _ (by rw [put_ne _ _ hcur, hm]; simp) (by simpa using hn)
        (fun w hw => hf w (by simp [hw]))]
      have : put (put (put m .ntf ((act v).new.foldl place (m .ntf))) cur
            (passed ++ [v] ++ rem.filter fun v => (act v).keep)) .ntf
            ((rem.flatMap fun v => (act v).new).foldl place
              (put m .ntf ((act v).new.foldl place (m .ntf)) .ntf)) =
          put (put m cur (passed ++ (v :: rem).filter fun v => (act v).keep)) .ntf
            (((v :: rem).flatMap fun v => (act v).new).foldl place (m .ntf)) := by
        funext d
        simp only [put, if_true, List.flatMap_cons, List.foldl_append, List.filter_cons, hk,
          List.append_assoc, List.singleton_append]
        split_ifs <;> rfl
      rw [this]
      cases update place act f _ cur segs [] <;> rfl
    · rw [if_neg hk]
      rw [put_ne _ _ hcur, hm, erase_mid rem hvp]
      rw [stage hcur segs f rem passed _ (put_same _ _ _)
        (hn.sublist (List.Sublist.append_left (List.sublist_cons_self v rem) passed))
        (fun w hw => hf w (by simp [hw]))]
      have : put (put (put (put m .ntf ((act v).new.foldl place (m .ntf))) cur (passed ++ rem)) cur
            (passed ++ rem.filter fun v => (act v).keep)) .ntf
            ((rem.flatMap fun v => (act v).new).foldl place
              (put (put m .ntf ((act v).new.foldl place (m .ntf))) cur (passed ++ rem) .ntf)) =
          put (put m cur (passed ++ (v :: rem).filter fun v => (act v).keep)) .ntf
            (((v :: rem).flatMap fun v => (act v).new).foldl place (m .ntf)) := by
        funext d
        have hcur' : Cat.ntf ≠ cur := fun e => hcur e.symm
        simp only [put, if_true, List.flatMap_cons, List.foldl_append, List.filter_cons, hk,
          if_neg hcur', Bool.false_eq_true, if_false]
        split_ifs <;> rfl
      rw [this]
      cases update place act f _ cur segs [] <;> rfl

/-- The loop over the notifications. -/
theorem stage_ntf {place : List V → V → List V} {act : V → Act} (hntf : ∀ v, v.ntf = true → (act v).new = [])
    (segs : List Cat) (f : Nat) :
    ∀ (rem passed : List V) (m : Maps), m .ntf = passed ++ rem → (passed ++ rem).Nodup →
      (∀ v ∈ rem, v.ntf = true) →
      update place act (f + rem.length) m .ntf segs rem =
        (update place act f (put m .ntf (passed ++ rem.filter fun v => (act v).keep)) .ntf segs []).map
          fun r => (rem ++ r.1, r.2)
  | [], passed, m, hm, _, _ => by
    have : put m .ntf (passed ++ [].filter fun v => (act v).keep) = m := by
      funext d
      simp only [put, List.filter_nil, List.append_nil]
      split_ifs with e1
      · rw [e1, hm, List.append_nil]
      · rfl
    rw [this]
    show update place act f m .ntf segs [] = _
    cases update place act f m .ntf segs [] <;> rfl
  | v :: rem, passed, m, hm, hn, hf => by
    have hv : fileOf v = .ntf := by unfold fileOf; rw [hf v (by simp)]; rfl
    have hvp : v ∉ passed := by
      intro hmem
      exact (List.nodup_append.1 hn).2.2 v hmem v (by simp) rfl
    have hins : insertNew place m .ntf (act v).new = some m := by
      rw [hntf v (hf v (by simp))]; rfl
    rw [List.length_cons, ← Nat.add_assoc, update_cons (f + rem.length) m m .ntf segs v rem hins hv]
    by_cases hk : (act v).keep = true
    · rw [if_pos hk]
      rw [stage_ntf hntf segs f rem (passed ++ [v]) m (by rw [hm]; simp) (by simpa using hn)
        (fun w hw => hf w (by simp [hw]))]
      rw [show passed ++ [v] ++ rem.filter (fun v => (act v).keep) =
        passed ++ (v :: rem).filter (fun v => (act v).keep) by simp [List.filter_cons, hk]]
      cases update place act f _ .ntf segs [] <;> rfl
    · rw [if_neg hk, hm, erase_mid rem hvp]
      rw [stage_ntf hntf segs f rem passed _ (put_same _ _ _)
        (hn.sublist (List.Sublist.append_left (List.sublist_cons_self v rem) passed))
        (fun w hw => hf w (by simp [hw]))]
      have : put (put m .ntf (passed ++ rem)) .ntf (passed ++ rem.filter fun v => (act v).keep) =
          put m .ntf (passed ++ (v :: rem).filter fun v => (act v).keep) := by
        funext d
        simp only [put, List.filter_cons, hk, Bool.false_eq_true, if_false]
        split_ifs <;> rfl
      rw [this]
      cases update place act f _ .ntf segs [] <;> rfl

theorem update_next (place : List V → V → List V) (act : V → Act) (f : Nat) (m : Maps) (cur c : Cat)
    (segs : List Cat) : update place act f m cur (c :: segs) [] = update place act f m c segs (m c) := by
  cases f with
  | zero => rfl
  | succ f =>
    have hc : cond m cur (c :: segs) [] = cond m c segs (m c) := by rw [cond]
    simp only [update, hc]

theorem update_end (place : List V → V → List V) (act : V → Act) (f : Nat) (m : Maps) (cur : Cat) :
    update place act (f + 1) m cur [] [] = some ([], m) := by
  have hc : cond m cur [] [] = none := by rw [cond]
  simp only [update, hc]

theorem stage' {place : List V → V → List V} {act : V → Act} {cur : Cat} (hcur : cur ≠ .ntf)
    (m : Maps) (l : List V) (hl : m cur = l) (hn : l.Nodup) (hf : ∀ v ∈ l, fileOf v = cur) :
    ∃ m1 : Maps, (∀ f segs, update place act (f + l.length) m cur segs (m cur) =
        (update place act f m1 cur segs []).map fun r => (l ++ r.1, r.2)) ∧
      m1 cur = (l.filter fun v => (act v).keep) ∧
      m1 .ntf = ((l.flatMap fun v => (act v).new).foldl place (m .ntf)) ∧
      ∀ c, c ≠ cur → c ≠ .ntf → m1 c = m c := by
  refine ⟨put (put m cur ([] ++ l.filter fun v => (act v).keep)) .ntf
      ((l.flatMap fun v => (act v).new).foldl place (m .ntf)), fun f segs => ?_, ?_, ?_, ?_⟩
  · rw [hl]; exact stage hcur segs f l [] m hl hn hf
  · rw [put_ne _ _ hcur, put_same]; rfl
  · rw [put_same]
  · intro c h1 h2
    rw [put_ne _ _ h2, put_ne _ _ h1]

theorem stage_ntf' {place : List V → V → List V} {act : V → Act} (hntf : ∀ v, v.ntf = true → (act v).new = [])
    (m : Maps) (l : List V) (hl : m .ntf = l) (hn : l.Nodup) (hf : ∀ v ∈ l, v.ntf = true) :
    ∃ m1 : Maps, (∀ f segs, update place act (f + l.length) m .ntf segs (m .ntf) =
        (update place act f m1 .ntf segs []).map fun r => (l ++ r.1, r.2)) ∧
      m1 .ntf = (l.filter fun v => (act v).keep) ∧
      ∀ c, c ≠ .ntf → m1 c = m c := by
  refine ⟨put m .ntf ([] ++ l.filter fun v => (act v).keep), fun f segs => ?_, ?_, ?_⟩
  · rw [hl]; exact stage_ntf hntf segs f l [] m hl hn hf
  · rw [put_same]; rfl
  · intro c h1
    rw [put_ne _ _ h1]

theorem filed_ntf {m : Maps} (hfiled : Filed m) : ∀ v ∈ m .ntf, v.ntf = true := by
  intro v hv
  have := hfiled .ntf v hv
  unfold fileOf at this
  by_contra hc
  rw [if_neg hc] at this
  revert this
  cases v.kind <;> simp

/-- The loops over the views of a group visit each view exactly once, whatever the distribution over
the maps; the loop of the update, which deletes views and may inject notifications into the group as it
goes, visits each view exactly once (and each new notification at most once), ends, has no undefined
behaviour, deletes exactly the views decided on and leaves all views filed. -/
theorem loops (m : Maps) (hfiled : Filed m) (hnd : ∀ c, (m c).Nodup) :
    (∀ f, (m .ipgm ++ allSegs.flatMap m).length < f →
      visit m f .ipgm allSegs (m .ipgm) = some (m .ipgm ++ m .anti ++ m .inputLess ++ m .ntf ++ m .group ++ m .other)) ∧
    (∀ f, (m .ipgm ++ inputSegs.flatMap m).length < f →
      visit m f .ipgm inputSegs (m .ipgm) = some (m .ipgm ++ m .anti)) ∧
    (∀ f, (m .ipgm ++ nonNtfSegs.flatMap m).length < f →
      visit m f .ipgm nonNtfSegs (m .ipgm) = some (m .ipgm ++ m .anti ++ m .inputLess ++ m .group ++ m .other)) ∧
    (∀ (place : List V → V → List V) (act : V → Act), (∀ l v, (place l v).Perm (v :: l)) →
      (∀ v, v.ntf = true → (act v).new = []) → (∀ v, ∀ n ∈ (act v).new, n.ntf = true) →
      ((((m .ipgm ++ m .anti ++ m .inputLess).flatMap fun v => (act v).new) ++ m .ntf).Nodup) →
      ∃ f0 m' visited, (∀ f, f0 ≤ f →
          update place act f m .ipgm allSegs (m .ipgm) = some (visited, m')) ∧
        visited.Perm (m .ipgm ++ m .anti ++ m .inputLess ++ m .ntf ++ m .group ++ m .other ++
          ((m .ipgm ++ m .anti ++ m .inputLess).flatMap fun v => (act v).new)) ∧
        (∀ c, c ≠ .ntf → m' c = (m c).filter fun v => (act v).keep) ∧
        (m' .ntf).Perm (((m .ntf ++
          ((m .ipgm ++ m .anti ++ m .inputLess).flatMap fun v => (act v).new)).filter fun v => (act v).keep) ++
          ((m .group ++ m .other).flatMap fun v => (act v).new)) ∧
        Filed m') := by
  refine ⟨fun f hf => ?_, fun f hf => ?_, fun f hf => ?_, fun place act hp hntf hnew hnd1 => ?_⟩
  · rw [visit_eq m allSegs .ipgm (m .ipgm) f (by simpa using hf)]
    simp [allSegs]
  · rw [visit_eq m inputSegs .ipgm (m .ipgm) f (by simpa using hf)]
    simp [inputSegs]
  · rw [visit_eq m nonNtfSegs .ipgm (m .ipgm) f (by simpa using hf)]
    simp [nonNtfSegs]
  · let N1 := (m .ipgm ++ m .anti ++ m .inputLess).flatMap fun v => (act v).new
    let N2 := (m .group ++ m .other).flatMap fun v => (act v).new
    have hperm1 : (N1.foldl place (m .ntf)).Perm (N1 ++ m .ntf) := foldl_place hp _ _
    have hN1 : ∀ v ∈ N1, v.ntf = true := by
      intro v hv
      obtain ⟨w, _, hw⟩ := List.mem_flatMap.1 hv
      exact hnew w v hw
    have hN2 : ∀ v ∈ N2, v.ntf = true := by
      intro v hv
      obtain ⟨w, _, hw⟩ := List.mem_flatMap.1 hv
      exact hnew w v hw
    obtain ⟨m1, u1, k1, n1, o1⟩ := stage' (place := place) (act := act) (cur := .ipgm) (by decide) m
      (m .ipgm) rfl (hnd _) (hfiled _)
    obtain ⟨m2, u2, k2, n2, o2⟩ := stage' (place := place) (act := act) (cur := .anti) (by decide) m1
      (m .anti) (by rw [o1] <;> decide) (hnd _) (hfiled _)
    obtain ⟨m3, u3, k3, n3, o3⟩ := stage' (place := place) (act := act) (cur := .inputLess) (by decide) m2
      (m .inputLess) (by rw [o2, o1] <;> decide) (hnd _) (hfiled _)
    have e3 : m3 .ntf = N1.foldl place (m .ntf) := by
      rw [n3, n2, n1, ← List.foldl_append, ← List.foldl_append]
      simp only [N1, List.flatMap_append, List.append_assoc]
    obtain ⟨m4, u4, k4, o4⟩ := stage_ntf' (place := place) (act := act) hntf m3
      (N1.foldl place (m .ntf)) e3 (hperm1.nodup_iff.2 hnd1) (by
        intro v hv
        rcases List.mem_append.1 (hperm1.mem_iff.1 hv) with hv | hv
        · exact hN1 v hv
        · exact filed_ntf hfiled v hv)
    obtain ⟨m5, u5, k5, n5, o5⟩ := stage' (place := place) (act := act) (cur := .group) (by decide) m4
      (m .group) (by rw [o4, o3, o2, o1] <;> decide) (hnd _) (hfiled _)
    obtain ⟨m6, u6, k6, n6, o6⟩ := stage' (place := place) (act := act) (cur := .other) (by decide) m5
      (m .other) (by rw [o5, o4, o3, o2, o1] <;> decide) (hnd _) (hfiled _)
    have e6 : (m6 .ntf).Perm (((m .ntf ++ N1).filter fun v => (act v).keep) ++ N2) := by
      have h : m6 .ntf = N2.foldl place ((N1.foldl place (m .ntf)).filter fun v => (act v).keep) := by
        rw [n6, n5, ← List.foldl_append, k4]
        simp only [N2, List.flatMap_append]
      rw [h]
      refine (foldl_place hp _ _).trans (List.perm_append_comm.trans ?_)
      exact ((hperm1.trans List.perm_append_comm).filter _).append_right _
    have hother : ∀ c, c ≠ .ntf → m6 c = (m c).filter fun v => (act v).keep := by
      intro c hc
      cases c
      · rw [o6, o5, o4, o3, o2, k1] <;> decide
      · rw [o6, o5, o4, o3, k2] <;> decide
      · rw [o6, o5, o4, k3] <;> decide
      · exact absurd rfl hc
      · rw [o6, k5] <;> decide
      · exact k6
    refine ⟨1 + (m .other).length + (m .group).length + (N1.foldl place (m .ntf)).length +
      (m .inputLess).length + (m .anti).length + (m .ipgm).length, m6,
      m .ipgm ++ (m .anti ++ (m .inputLess ++ (N1.foldl place (m .ntf) ++ (m .group ++ (m .other ++ []))))),
      fun f hf => ?_, ?_, hother, e6, ?_⟩
    · obtain ⟨g, rfl⟩ : ∃ g, f = g + 1 + (m .other).length + (m .group).length +
          (N1.foldl place (m .ntf)).length + (m .inputLess).length + (m .anti).length + (m .ipgm).length :=
        ⟨f - (1 + (m .other).length + (m .group).length + (N1.foldl place (m .ntf)).length +
          (m .inputLess).length + (m .anti).length + (m .ipgm).length), by omega⟩
      rw [u1, show allSegs = [.anti, .inputLess, .ntf, .group, .other] from rfl, update_next, u2, update_next,
        u3, update_next, u4, update_next, u5, update_next, u6, update_end]
      rfl
    · simp only [List.append_nil, List.append_assoc]
      refine List.Perm.append_left _ (List.Perm.append_left _ (List.Perm.append_left _ ?_))
      refine (hperm1.append_right _).trans ?_
      simp only [List.append_assoc]
      refine List.perm_append_comm.trans ?_
      simp only [N1, List.append_assoc]
      exact List.Perm.refl _
    · intro c v hv
      by_cases hc : c = .ntf
      · subst hc
        have : v.ntf = true := by
          rcases List.mem_append.1 (e6.mem_iff.1 hv) with h | h
          · rcases List.mem_append.1 (List.mem_filter.1 h).1 with h | h
            · exact filed_ntf hfiled v h
            · exact hN1 v h
          · exact hN2 v h
        unfold fileOf; rw [this]; rfl
      · rw [hother c hc] at hv
        exact hfiled c v (List.mem_filter.1 hv).1

/-! ### Filing -/

/-- What the callers guarantee: notifications are markers in `NotificationView`s, all other views are not
notifications, images hold no null programs, and `inject_hlps` is called with composite states and models. -/
def Allowed : Op → Prop
  | .load v => v.ntf = false ∧ v.kind ≠ .nullPgm
  | .inject _ v => v.ntf = false
  | .ntf v => v.ntf = true
  | .hlp v => v.ntf = false ∧ (v.kind = .cst ∨ v.kind = .mdl)
  | .delete _ => True

theorem store_inv {place : List V → V → List V} (hp : ∀ l v, (place l v).Perm (v :: l)) {m : Maps}
    (h : Filed m ∧ Unique m) (v : V) : Filed (store place m (fileOf v) v) ∧ Unique (store place m (fileOf v) v) := by
  refine ⟨fun c w hw => ?_, fun c => ?_⟩
  · unfold store at hw
    by_cases hc : c = fileOf v
    · subst hc
      rw [put_same] at hw
      rcases List.mem_cons.1 ((hp _ _).mem_iff.1 hw) with rfl | hw
      · rfl
      · exact h.1 _ w (List.mem_filter.1 hw).1
    · rw [put_ne _ _ hc] at hw
      exact h.1 c w hw
  · unfold store
    by_cases hc : c = fileOf v
    · subst hc
      rw [put_same]
      refine ((hp _ _).map V.oid).nodup_iff.2 ?_
      rw [List.map_cons, List.nodup_cons]
      refine ⟨fun hm => ?_, (h.2 (fileOf v)).sublist (List.Sublist.map _ List.filter_sublist)⟩
      obtain ⟨w, hw, he⟩ := List.mem_map.1 hm
      have := (List.mem_filter.1 hw).2
      simp [he] at this
    · rw [put_ne _ _ hc]
      exact h.2 c

/-- The map into which a view goes. -/
theorem step_store {place : List V → V → List V} (m : Maps) (o : Op) (ho : Allowed o) :
    (∃ v, step place m o = store place m (fileOf v) v) ∨ step place m o = m ∨
      ∃ v, step place m o = deleteView m v := by
  cases o with
  | load v =>
    obtain ⟨h1, h2⟩ := ho
    refine .inl ⟨v, ?_⟩
    simp only [step, load, fileOf, h1]
    cases hk : v.kind <;> first | rfl | exact absurd hk h2
  | inject r v =>
    have h1 : v.ntf = false := ho
    simp only [step, memInject, inject]
    by_cases hg : r = true ∧ v.kind = .group
    · exact .inr (.inl (by simp [hg.1, hg.2]))
    · refine .inl ⟨v, ?_⟩
      cases r <;> cases hk : v.kind <;> simp_all [fileOf]
  | ntf v =>
    have h1 : v.ntf = true := ho
    exact .inl ⟨v, by simp only [step, injectNtf, fileOf, h1, if_true]⟩
  | hlp v =>
    obtain ⟨h1, h2⟩ := ho
    refine .inl ⟨v, ?_⟩
    rcases h2 with h2 | h2 <;> simp [step, injectHlp, fileOf, h1, h2]
  | delete v => exact .inr (.inr ⟨v, rfl⟩)

theorem step_inv {place : List V → V → List V} (hp : ∀ l v, (place l v).Perm (v :: l)) {m : Maps}
    (h : Filed m ∧ Unique m) (o : Op) (ho : Allowed o) :
    Filed (step place m o) ∧ Unique (step place m o) := by
  rcases step_store (place := place) m o ho with ⟨v, e⟩ | e | ⟨v, e⟩
  · rw [e]; exact store_inv hp h v
  · rw [e]; exact h
  · rw [e]
    refine ⟨fun c w hw => ?_, fun c => ?_⟩
    · unfold deleteView at hw
      by_cases hc : c = fileOf v
      · subst hc
        rw [put_same] at hw
        exact h.1 _ w (List.mem_filter.1 hw).1
      · rw [put_ne _ _ hc] at hw
        exact h.1 c w hw
    · unfold deleteView
      by_cases hc : c = fileOf v
      · subst hc
        rw [put_same]
        exact (h.2 (fileOf v)).sublist (List.Sublist.map _ List.filter_sublist)
      · rw [put_ne _ _ hc]
        exact h.2 c

theorem run_inv {place : List V → V → List V} (hp : ∀ l v, (place l v).Perm (v :: l)) :
    ∀ (ops : List Op) {m : Maps}, Filed m ∧ Unique m → (∀ o ∈ ops, Allowed o) →
      Filed (ops.foldl (step place) m) ∧ Unique (ops.foldl (step place) m)
  | [], _, h, _ => h
  | o :: ops, _, h, ho => run_inv hp ops (step_inv hp h o (ho o (by simp))) (fun o' h' => ho o' (by simp [h']))

/-- The maps of a group after a history of loading, injections and deletions. -/
def after (place : List V → V → List V) (ops : List Op) : Maps := ops.foldl (step place) fun _ => []

/-- C55: after any history, the loop over all views visits each view of the six maps exactly once, the loops
over the views with inputs and over the views other than notifications visit exactly theirs, wherever empty
maps are. The loop of the update, which deletes views and may inject notifications into the group as it goes,
ends without undefined behaviour, visits each view present at the start exactly once, each new notification
at most once, deletes exactly the views decided on, and leaves all views filed for deletion. -/
theorem C55_visits (place : List V → V → List V) (hp : ∀ l v, (place l v).Perm (v :: l)) (ops : List Op)
    (hops : ∀ o ∈ ops, Allowed o) (m : Maps) (hm : m = after place ops) :
    (∃ f0 l, (∀ f, f0 ≤ f → visit m f .ipgm allSegs (m .ipgm) = some l) ∧
      ∀ v, l.count v = if v ∈ m (fileOf v) then 1 else 0) ∧
    (∃ f0 l, (∀ f, f0 ≤ f → visit m f .ipgm inputSegs (m .ipgm) = some l) ∧
      ∀ v, l.count v = if v ∈ m (fileOf v) ∧ (fileOf v = .ipgm ∨ fileOf v = .anti) then 1 else 0) ∧
    (∃ f0 l, (∀ f, f0 ≤ f → visit m f .ipgm nonNtfSegs (m .ipgm) = some l) ∧
      ∀ v, l.count v = if v ∈ m (fileOf v) ∧ fileOf v ≠ .ntf then 1 else 0) ∧
    (∀ (c : Cat) (v : V), v ∈ m c → fileOf v = c) ∧
    (∀ act : V → Act,
      (∀ v, v.ntf = true → (act v).new = []) → (∀ v, ∀ n ∈ (act v).new, n.ntf = true) →
      ((((m .ipgm ++ m .anti ++ m .inputLess).flatMap fun v => (act v).new) ++ m .ntf).Nodup) →
      ∃ f0 m' visited, (∀ f, f0 ≤ f →
          update place act f m .ipgm allSegs (m .ipgm) = some (visited, m')) ∧
        visited.Nodup ∧
        (∀ c, ∀ v ∈ m c, v ∈ visited) ∧
        (∀ v ∈ visited, v ∈ m (fileOf v) ∨ ∃ w, w ∈ m (fileOf w) ∧ v ∈ (act w).new) ∧
        (∀ c, c ≠ .ntf → m' c = (m c).filter fun v => (act v).keep) ∧
        (m' .ntf).Perm (((m .ntf ++
          ((m .ipgm ++ m .anti ++ m .inputLess).flatMap fun v => (act v).new)).filter fun v => (act v).keep) ++
          ((m .group ++ m .other).flatMap fun v => (act v).new)) ∧
        ∀ c, ∀ v ∈ m' c, fileOf v = c) := by
  have hinv : Filed m ∧ Unique m := by
    rw [hm]
    exact run_inv hp ops ⟨fun _ _ h => (List.not_mem_nil h).elim, fun _ => List.nodup_nil⟩ hops
  have hnd : ∀ c, (m c).Nodup := fun c => List.Nodup.of_map V.oid (hinv.2 c)
  have hcount : ∀ c v, (m c).count v = if v ∈ m c then 1 else 0 := by
    intro c v
    split_ifs with h
    · exact List.count_eq_one_of_mem (hnd c) h
    · exact List.count_eq_zero_of_not_mem h
  have hf : ∀ c v, v ∈ m c → fileOf v = c := fun c v h => hinv.1 c v h
  have hz : ∀ c v, fileOf v ≠ c → (m c).count v = 0 := by
    intro c v h
    exact List.count_eq_zero_of_not_mem fun hm => h (hf c v hm)
  obtain ⟨v1, v2, v3, u⟩ := loops m hinv.1 hnd
  refine ⟨⟨_, _, fun f hf => v1 f hf, fun v => ?_⟩, ⟨_, _, fun f hf => v2 f hf, fun v => ?_⟩,
    ⟨_, _, fun f hf => v3 f hf, fun v => ?_⟩, hf, fun act h1 h2 h3 => ?_⟩
  · have h0 := fun c => hz c v
    have h1 := hcount (fileOf v) v
    simp only [List.count_append]
    revert h0 h1
    generalize fileOf v = c
    intro h0 h1
    cases c <;> simp_all
  · have h0 := fun c => hz c v
    have h1 := hcount (fileOf v) v
    simp only [List.count_append]
    revert h0 h1
    generalize fileOf v = c
    intro h0 h1
    cases c <;> simp_all
  · have h0 := fun c => hz c v
    have h1 := hcount (fileOf v) v
    simp only [List.count_append]
    revert h0 h1
    generalize fileOf v = c
    intro h0 h1
    cases c <;> simp_all
  · obtain ⟨f0, m', visited, a1, a2, a3, a4, a5⟩ := u place act hp h1 h2 h3
    refine ⟨f0, m', visited, a1, ?_, ?_, ?_, a3, a4, a5⟩
    · refine a2.nodup_iff.2 ?_
      rw [List.nodup_iff_count_le_one]
      intro v
      have hN : ∀ v ∈ ((m .ipgm ++ m .anti ++ m .inputLess).flatMap fun v => (act v).new), fileOf v = .ntf := by
        intro v hv
        obtain ⟨w, _, hw⟩ := List.mem_flatMap.1 hv
        unfold fileOf; rw [h2 w v hw]; rfl
      have h3' := (List.nodup_iff_count_le_one.1 h3) v
      revert h3' hN
      generalize ((m .ipgm ++ m .anti ++ m .inputLess).flatMap fun v => (act v).new) = N
      intro hN h3'
      have h0 := fun c => hz c v
      have h1 := hcount (fileOf v) v
      have hN' : fileOf v ≠ .ntf → N.count v = 0 := fun h =>
        List.count_eq_zero_of_not_mem fun hm => h (hN v hm)
      simp only [List.count_append] at h3' ⊢
      have hle : (m (fileOf v)).count v ≤ 1 := by rw [h1]; split_ifs <;> omega
      clear h1
      revert h0 hN' hle
      generalize fileOf v = c
      intro h0 hN' hle
      cases c <;> simp_all <;> omega
    · intro c v hv
      refine a2.mem_iff.2 ?_
      cases c <;> simp [hv]
    · intro v hv
      rcases List.mem_append.1 (a2.mem_iff.1 hv) with hv | hv
      · left
        simp only [List.mem_append] at hv
        rcases hv with ((((hv | hv) | hv) | hv) | hv) | hv <;> rw [hf _ v hv] <;> exact hv
      · right
        obtain ⟨w, hw, hvw⟩ := List.mem_flatMap.1 hv
        refine ⟨w, ?_, hvw⟩
        simp only [List.mem_append] at hw
        rcases hw with (hw | hw) | hw <;> rw [hf _ w hw] <;> exact hw

/-- A group with a program, a model, a notification and a subgroup: the update deletes the model and injects a
notification, which the loop reaches as well. -/
theorem C55_nonvacuous :
    let place : List V → V → List V := fun l v => v :: l
    let ops : List Op := [.load ⟨1, .ipgm, false⟩, .inject false ⟨2, .mdl, false⟩, .ntf ⟨3, .marker, true⟩,
      .inject false ⟨4, .group, false⟩, .delete ⟨1, .ipgm, false⟩, .inject true ⟨5, .anti, false⟩]
    let act : V → Act := fun v => if v.oid = 2 then ⟨false, [⟨6, .marker, true⟩]⟩ else ⟨true, []⟩
    let m := after place ops
    visit m 9 .ipgm allSegs (m .ipgm) =
      some [⟨2, .mdl, false⟩, ⟨5, .anti, false⟩, ⟨3, .marker, true⟩, ⟨4, .group, false⟩] ∧
    (update place act 9 m .ipgm allSegs (m .ipgm)).map (·.1) =
      some [⟨2, .mdl, false⟩, ⟨5, .anti, false⟩, ⟨6, .marker, true⟩, ⟨3, .marker, true⟩, ⟨4, .group, false⟩] ∧
    (update place act 9 m .ipgm allSegs (m .ipgm)).map (fun r => (r.2 .ipgm, r.2 .anti, r.2 .ntf)) =
      some ([], [⟨5, .anti, false⟩], [⟨6, .marker, true⟩, ⟨3, .marker, true⟩]) := by
  decide

/-! ### Finding views again -/

theorem find_none {l : List V} {oid : Nat} (h : ∀ w ∈ l, w.oid ≠ oid) : l.find? (·.oid = oid) = none := by
  rw [List.find?_eq_none]
  intro w hw
  simpa using h w hw

theorem find_place {place : List V → V → List V} (hp : ∀ l v, (place l v).Perm (v :: l)) {l : List V} {v : V}
    (h : ∀ w ∈ l, w.oid ≠ v.oid) : (place (l.filter (·.oid ≠ v.oid)) v).find? (·.oid = v.oid) = some v := by
  have hmem : v ∈ place (l.filter (·.oid ≠ v.oid)) v := (hp _ _).mem_iff.2 (by simp)
  cases hfind : (place (l.filter (·.oid ≠ v.oid)) v).find? (·.oid = v.oid) with
  | none =>
    rw [List.find?_eq_none] at hfind
    simpa using hfind v hmem
  | some w =>
    have hw := List.mem_of_find?_eq_some hfind
    have he := List.find?_some hfind
    rcases List.mem_cons.1 ((hp _ _).mem_iff.1 hw) with rfl | hw
    · rfl
    · exact absurd (by simpa using he) (h w (List.mem_filter.1 hw).1)

theorem getView_store {place : List V → V → List V} (hp : ∀ l v, (place l v).Perm (v :: l)) (m : Maps) (v : V)
    (c : Cat) (hfresh : ∀ c, ∀ w ∈ m c, w.oid ≠ v.oid) : getView (store place m c v) v.oid = some v := by
  have hn := fun c => find_none (hfresh c)
  have hs := find_place hp (hfresh c)
  unfold getView store
  cases c <;>
    simp only [put, reduceCtorEq, if_false, if_true, hn, hs, Option.none_or, Option.some_or]

/-- What C68 demands of the views injected from outside, by reductions and by the notifications. -/
def C68_full : Prop :=
  ∀ (place : List V → V → List V), (∀ l v, (place l v).Perm (v :: l)) →
  ∀ (m : Maps) (o : Op) (v : V), Allowed o →
    (o = .load v ∨ (∃ r, o = .inject r v) ∨ o = .ntf v ∨ o = .hlp v) →
    (∀ c, ∀ w ∈ m c, w.oid ≠ v.oid) → getView (step place m o) v.oid = some v

/-- C68 fails: the view of a group that memory knows already, injected into a second group, is put into no
map at all. -/
theorem C68_filed_violated : ¬ C68_full ∧
    ∀ (place : List V → V → List V) (m : Maps) (oid : Nat),
      step place m (.inject true ⟨oid, .group, false⟩) = m := by
  refine ⟨fun h => ?_, fun _ _ _ => rfl⟩
  have := h (fun l v => v :: l) (fun _ _ => List.Perm.refl _) (fun _ => []) (.inject true ⟨1, .group, false⟩)
    ⟨1, .group, false⟩ rfl (.inr (.inl ⟨true, rfl⟩)) (fun _ _ h => (List.not_mem_nil h).elim)
  simp [step, memInject, inject, getView] at this

/-- C68 but for that: every other view loaded or injected is found again under its OID; and a deleted view is
not. -/
theorem C68_filed_partial (place : List V → V → List V) (hp : ∀ l v, (place l v).Perm (v :: l))
    (m : Maps) (o : Op) (v : V) (ho : Allowed o)
    (hv : o = .load v ∨ (∃ r, o = .inject r v ∧ ¬ (r = true ∧ v.kind = .group)) ∨ o = .ntf v ∨ o = .hlp v)
    (hfresh : ∀ c, ∀ w ∈ m c, w.oid ≠ v.oid) :
    getView (step place m o) v.oid = some v ∧
    (∀ oid, oid ≠ v.oid → ∀ c, ((step place m o) c).filter (·.oid = oid) = [] ↔ (m c).filter (·.oid = oid) = []) ∧
    (getView (step place (step place m o) (.delete v)) v.oid = none) := by
  have key : step place m o = store place m (fileOf v) v := by
    rcases hv with rfl | ⟨r, rfl, hr⟩ | rfl | rfl
    · obtain ⟨h1, h2⟩ := ho
      simp only [step, load, fileOf, h1]
      cases hk : v.kind <;> first | rfl | exact absurd hk h2
    · have h1 : v.ntf = false := ho
      simp only [step, memInject, inject]
      cases r <;> cases hk : v.kind <;> simp_all [fileOf]
    · have h1 : v.ntf = true := ho
      simp only [step, injectNtf, fileOf, h1, if_true]
    · obtain ⟨h1, h2⟩ := ho
      rcases h2 with h2 | h2 <;> simp [step, injectHlp, fileOf, h1, h2]
  rw [key]
  refine ⟨getView_store hp m v _ hfresh, fun oid hne c => ?_, ?_⟩
  · unfold store
    by_cases hc : c = fileOf v
    · subst hc
      rw [put_same]
      have hperm := (hp ((m (fileOf v)).filter (·.oid ≠ v.oid)) v).filter (fun w => decide (w.oid = oid))
      rw [List.filter_cons, if_neg (by simpa using fun e => hne e.symm)] at hperm
      rw [show (m (fileOf v)).filter (·.oid ≠ v.oid) = m (fileOf v) from
        List.filter_eq_self.2 fun w hw => by simpa using hfresh _ w hw] at hperm ⊢
      exact ⟨fun h => by rw [h] at hperm; exact hperm.symm.eq_nil, fun h => by rw [h] at hperm; exact hperm.eq_nil⟩
    · rw [put_ne _ _ hc]
  · have hn := fun c => find_none (hfresh c)
    have hd : ∀ c, ∀ w ∈ deleteView (store place m (fileOf v) v) v c, w.oid ≠ v.oid := by
      intro c w hw
      unfold deleteView at hw
      by_cases hc : c = fileOf v
      · subst hc
        rw [put_same] at hw
        simpa using (List.mem_filter.1 hw).2
      · rw [put_ne _ _ hc] at hw
        unfold store at hw
        rw [put_ne _ _ hc] at hw
        exact hfresh c w hw
    have hn' := fun c => find_none (hd c)
    show getView (deleteView _ v) v.oid = none
    unfold getView
    simp only [hn', Option.none_or]

/-- A model injected beside others. -/
theorem C68_nonvacuous :
    let place : List V → V → List V := fun l v => v :: l
    let m := after place [.load ⟨1, .ipgm, false⟩, .load ⟨2, .object, false⟩]
    getView (step place m (.inject true ⟨7, .mdl, false⟩)) 7 = some ⟨7, .mdl, false⟩ ∧
    getView (step place m (.inject false ⟨7, .group, false⟩)) 7 = some ⟨7, .group, false⟩ ∧
    getView (step place m (.inject true ⟨7, .group, false⟩)) 7 = none := by
  simp +decide [after, step, load, memInject, inject, store, put, getView]

end Verif.GroupViews
