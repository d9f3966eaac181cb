import Verif.Image.Lemmas
/-! Proof internals: string, member and class records. -/
namespace Verif.Image

theorem writeStr_mid (s : List Byte) (pre old post : Mem) {a : Nat} (ha : a = pre.length)
    (ho : old.length = strSize s) :
    ∃ ws, IsStr s ws ∧ writeStr (pre ++ (old ++ post)) a s =
      some (pre ++ (BitVec.ofNat 32 (strSize s - 1) :: (ws ++ post))) := by
  rw [strSize_eq] at ho
  obtain ⟨x0, old, rfl, ho0⟩ := consLen ho
  simp only [writeStr, Option.bind_eq_bind, List.cons_append]
  rw [store_mid pre _ x0 _ ha, Option.bind_some]
  obtain ⟨ws, hws, h⟩ := storeBytes_mid s (pre ++ [BitVec.ofNat 32 (strSize s - 1)]) old post
    (k := 4 * (a + 1)) (by simp [ha]) ho0
  simp only [List.append_assoc, List.cons_append, List.nil_append] at h
  exact ⟨ws, hws, h⟩

theorem readStr_mid (s s0 : List Byte) (hs : (0#8) ∉ s) (ws pre post : Mem) (w : W) (h : IsStr s ws)
    {a : Nat} (ha : a = pre.length) :
    readStr (pre ++ (w :: (ws ++ post))) a s0 = some (s0 ++ s) := by
  have h1 := cstrAt_mid s hs ws (pre ++ [w]) post h (a := a + 1) (by simp [ha])
  simp only [List.append_assoc, List.cons_append, List.nil_append] at h1
  simp [readStr, h1]

/-- The words of a member record, up to string padding. -/
def IsMember (x : Member) (ws : List W) : Prop :=
  ∃ w1 w2, IsStr x.cls w1 ∧ IsStr x.name w2 ∧
    ws = x.reader :: x.type :: BitVec.ofNat 32 (strSize x.cls - 1) ::
      (w1 ++ (x.iter :: BitVec.ofNat 32 (strSize x.name - 1) :: w2))

theorem IsMember.length {x : Member} {ws : List W} (h : IsMember x ws) : ws.length = x.size := by
  obtain ⟨w1, w2, h1, h2, rfl⟩ := h
  simp [Member.size, strSize_eq, h1.1, h2.1]; omega

theorem Member.write_mid (x : Member) (pre old post : Mem) {a : Nat} (ha : a = pre.length)
    (ho : old.length = x.size) :
    ∃ ws, IsMember x ws ∧ x.write (pre ++ (old ++ post)) a = some (pre ++ (ws ++ post)) := by
  simp only [Member.size] at ho
  obtain ⟨x0, old, rfl, ho0⟩ := consLen (n := 2 + strSize x.cls + strSize x.name)
    (ho.trans (by omega))
  obtain ⟨x1, old, rfl, ho1⟩ := consLen (n := strSize x.cls + (1 + strSize x.name))
    (ho0.trans (by omega))
  obtain ⟨o1, old, rfl, hc, hr⟩ := splitLen ho1
  obtain ⟨x2, o2, rfl, hr2⟩ := consLen (n := strSize x.name) (hr.trans (by omega))
  simp only [Member.write, Option.bind_eq_bind, List.cons_append, List.append_assoc]
  rw [store_mid pre _ x0 _ ha, Option.bind_some]
  have h := store_mid (pre ++ [x.reader]) (o1 ++ (x2 :: (o2 ++ post))) x1 x.type
    (a := a + 1) (by simp [ha])
  simp only [List.append_assoc, List.cons_append, List.nil_append] at h
  rw [h, Option.bind_some]
  obtain ⟨w1, hw1, h⟩ := writeStr_mid x.cls (pre ++ [x.reader, x.type]) o1 (x2 :: (o2 ++ post))
    (a := a + 2) (by simp [ha]) hc
  simp only [List.append_assoc, List.cons_append, List.nil_append] at h
  rw [h, Option.bind_some]
  have h := store_mid (pre ++ [x.reader, x.type, BitVec.ofNat 32 (strSize x.cls - 1)] ++ w1)
    (o2 ++ post) x2 x.iter (a := a + 2 + strSize x.cls) (by simp [ha, hw1.1, strSize_eq]; omega)
  simp only [List.append_assoc, List.cons_append, List.nil_append] at h
  rw [h, Option.bind_some]
  obtain ⟨w2, hw2, h⟩ := writeStr_mid x.name
    (pre ++ [x.reader, x.type, BitVec.ofNat 32 (strSize x.cls - 1)] ++ w1 ++ [x.iter]) o2 post
    (a := a + 2 + strSize x.cls + 1) (by simp [ha, hw1.1, strSize_eq]; omega) hr2
  simp only [List.append_assoc, List.cons_append, List.nil_append] at h
  rw [h]
  exact ⟨_, ⟨w1, w2, hw1, hw2, rfl⟩, by simp⟩

def Member.Clean (x : Member) : Prop := (0#8) ∉ x.cls ∧ (0#8) ∉ x.name

theorem Member.read_mid (x : Member) (hx : x.Clean) {ws : List W} (h : IsMember x ws)
    (pre post : Mem) {a : Nat} (ha : a = pre.length) :
    Member.read (pre ++ (ws ++ post)) a = some x := by
  obtain ⟨w1, w2, hw1, hw2, rfl⟩ := h
  simp only [Member.read, Option.bind_eq_bind, List.cons_append, List.append_assoc]
  rw [load_mid pre _ _ ha, Option.bind_some]
  generalize hl1 : BitVec.ofNat 32 (strSize x.cls - 1) = l1
  generalize hl2 : BitVec.ofNat 32 (strSize x.name - 1) = l2
  have h := load_mid (pre ++ [x.reader]) (l1 :: (w1 ++ (x.iter :: l2 :: (w2 ++ post)))) x.type
    (a := a + 1) (by simp [ha])
  simp only [List.append_assoc, List.cons_append, List.nil_append] at h
  rw [h, Option.bind_some]
  have h := readStr_mid x.cls [] hx.1 w1 (pre ++ [x.reader, x.type]) (x.iter :: l2 :: (w2 ++ post))
    l1 hw1 (a := a + 2) (by simp [ha])
  simp only [List.append_assoc, List.cons_append, List.nil_append] at h
  rw [h, Option.bind_some]
  have h := load_mid (pre ++ [x.reader, x.type, l1] ++ w1) (l2 :: (w2 ++ post)) x.iter
    (a := a + 2 + strSize x.cls) (by simp [ha, hw1.1, strSize_eq]; omega)
  simp only [List.append_assoc, List.cons_append, List.nil_append] at h
  rw [h, Option.bind_some]
  have h := readStr_mid x.name [] hx.2 w2 (pre ++ [x.reader, x.type, l1] ++ w1 ++ [x.iter]) post
    l2 hw2 (a := a + 2 + strSize x.cls + 1) (by simp [ha, hw1.1, strSize_eq]; omega)
  simp only [List.append_assoc, List.cons_append, List.nil_append] at h
  rw [h, Option.bind_some]

inductive IsMembers : List Member → List W → Prop
  | nil : IsMembers [] []
  | cons {x xs ws ws'} : IsMember x ws → IsMembers xs ws' → IsMembers (x :: xs) (ws ++ ws')

theorem IsMembers.length {xs : List Member} {ws : List W} (h : IsMembers xs ws) :
    ws.length = (xs.map Member.size).sum := by
  induction h with
  | nil => rfl
  | cons h1 _ ih => simp [h1.length, ih]

theorem writeMembers_mid (xs : List Member) : ∀ (pre old post : Mem) {a : Nat}, a = pre.length →
    old.length = (xs.map Member.size).sum →
    ∃ ws, IsMembers xs ws ∧ writeMembers (pre ++ (old ++ post)) a xs = some (pre ++ (ws ++ post)) := by
  induction xs with
  | nil =>
    intro pre old post a _ ho
    obtain rfl := List.length_eq_zero_iff.mp ho
    exact ⟨[], .nil, rfl⟩
  | cons x xs ih =>
    intro pre old post a ha ho
    simp only [List.map_cons, List.sum_cons] at ho
    obtain ⟨o1, o2, rfl, h1, h2⟩ := splitLen ho
    simp only [writeMembers, List.append_assoc]
    obtain ⟨w1, hw1, h⟩ := x.write_mid pre o1 (o2 ++ post) ha h1
    rw [h, Option.bind_some]
    obtain ⟨w2, hw2, h⟩ := ih (pre ++ w1) o2 post (a := a + x.size) (by simp [ha, hw1.length]) h2
    simp only [List.append_assoc] at h
    rw [h]
    exact ⟨_, .cons hw1 hw2, by simp⟩

theorem readMembers_mid {xs : List Member} {ws : List W} (h : IsMembers xs ws) :
    (∀ x ∈ xs, x.Clean) → ∀ (pre post : Mem) {a : Nat}, a = pre.length →
    readMembers (pre ++ (ws ++ post)) a xs.length = some xs := by
  induction h with
  | nil => intro _ pre post a _; rfl
  | @cons x xs ws ws' h1 h2 ih =>
    intro hc pre post a ha
    simp only [readMembers, List.length_cons, List.append_assoc]
    rw [x.read_mid (hc x (by simp)) h1 pre _ ha, Option.bind_some]
    have h := ih (fun y hy => hc y (by simp [hy])) (pre ++ ws) post (a := a + x.size)
      (by simp [ha, h1.length])
    simp only [List.append_assoc] at h
    rw [h]; rfl

def IsClass (c : Class) (ws : List W) : Prop :=
  ∃ w1 w2, IsStr c.strOpcode w1 ∧ IsMembers c.members w2 ∧
    ws = c.atom :: BitVec.ofNat 32 (strSize c.strOpcode - 1) ::
      (w1 ++ (c.type :: c.useAs :: BitVec.ofNat 32 c.members.length :: w2))

theorem IsClass.length {c : Class} {ws : List W} (h : IsClass c ws) : ws.length = c.size := by
  obtain ⟨w1, w2, h1, h2, rfl⟩ := h
  simp [Class.size, strSize_eq, h1.1, h2.length]; omega

theorem Class.write_mid (c : Class) (pre old post : Mem) {a : Nat} (ha : a = pre.length)
    (ho : old.length = c.size) :
    ∃ ws, IsClass c ws ∧ c.write (pre ++ (old ++ post)) a = some (pre ++ (ws ++ post)) := by
  simp only [Class.size] at ho
  obtain ⟨x0, old, rfl, ho0⟩ := consLen (n := strSize c.strOpcode +
    (3 + (c.members.map Member.size).sum)) (ho.trans (by omega))
  obtain ⟨o1, old, rfl, hc, hr⟩ := splitLen ho0
  obtain ⟨x1, old, rfl, hr1⟩ := consLen (n := 2 + (c.members.map Member.size).sum)
    (hr.trans (by omega))
  obtain ⟨x2, old, rfl, hr2⟩ := consLen (n := 1 + (c.members.map Member.size).sum)
    (hr1.trans (by omega))
  obtain ⟨x3, o2, rfl, hr3⟩ := consLen (n := (c.members.map Member.size).sum)
    (hr2.trans (by omega))
  simp only [Class.write, Option.bind_eq_bind, List.cons_append, List.append_assoc]
  rw [store_mid pre _ x0 _ ha, Option.bind_some]
  obtain ⟨w1, hw1, h⟩ := writeStr_mid c.strOpcode (pre ++ [c.atom]) o1
    (x1 :: x2 :: x3 :: (o2 ++ post)) (a := a + 1) (by simp [ha]) hc
  simp only [List.append_assoc, List.cons_append, List.nil_append] at h
  rw [h, Option.bind_some]
  generalize hl1 : BitVec.ofNat 32 (strSize c.strOpcode - 1) = l1
  have h := store_mid (pre ++ [c.atom, l1] ++ w1) (x2 :: x3 :: (o2 ++ post)) x1 c.type
    (a := a + 1 + strSize c.strOpcode) (by simp [ha, hw1.1, strSize_eq]; omega)
  simp only [List.append_assoc, List.cons_append, List.nil_append] at h
  rw [h, Option.bind_some]
  have h := store_mid (pre ++ [c.atom, l1] ++ w1 ++ [c.type]) (x3 :: (o2 ++ post)) x2 c.useAs
    (a := a + 2 + strSize c.strOpcode) (by simp [ha, hw1.1, strSize_eq]; omega)
  simp only [List.append_assoc, List.cons_append, List.nil_append] at h
  rw [h, Option.bind_some]
  have h := store_mid (pre ++ [c.atom, l1] ++ w1 ++ [c.type, c.useAs]) (o2 ++ post) x3
    (BitVec.ofNat 32 c.members.length)
    (a := a + 3 + strSize c.strOpcode) (by simp [ha, hw1.1, strSize_eq]; omega)
  simp only [List.append_assoc, List.cons_append, List.nil_append] at h
  rw [h, Option.bind_some]
  obtain ⟨w2, hw2, h⟩ := writeMembers_mid c.members
    (pre ++ [c.atom, l1] ++ w1 ++ [c.type, c.useAs, BitVec.ofNat 32 c.members.length]) o2 post
    (a := a + 4 + strSize c.strOpcode) (by simp [ha, hw1.1, strSize_eq]; omega) hr3
  simp only [List.append_assoc, List.cons_append, List.nil_append] at h
  rw [h]
  exact ⟨_, ⟨w1, w2, hw1, hw2, rfl⟩, by simp [hl1]⟩

theorem Class.readInto_mid (c : Class) (hn : (0#8) ∉ c.strOpcode) (hm : ∀ x ∈ c.members, x.Clean)
    (hl : c.members.length < 2 ^ 32) {ws : List W} (h : IsClass c ws)
    (pre post : Mem) {a : Nat} (ha : a = pre.length) :
    Class.readInto [] (pre ++ (ws ++ post)) a = some c := by
  obtain ⟨w1, w2, hw1, hw2, rfl⟩ := h
  simp only [Class.readInto, Option.bind_eq_bind, List.cons_append, List.append_assoc]
  rw [load_mid pre _ _ ha, Option.bind_some]
  have e1 := toNat_len hl
  generalize BitVec.ofNat 32 c.members.length = l2 at *
  generalize hl1 : BitVec.ofNat 32 (strSize c.strOpcode - 1) = l1
  have h := readStr_mid c.strOpcode [] hn w1 (pre ++ [c.atom])
    (c.type :: c.useAs :: l2 :: (w2 ++ post)) l1 hw1 (a := a + 1) (by simp [ha])
  simp only [List.append_assoc, List.cons_append, List.nil_append] at h
  rw [h, Option.bind_some]
  have h := load_mid (pre ++ [c.atom, l1] ++ w1) (c.useAs :: l2 :: (w2 ++ post)) c.type
    (a := a + 1 + strSize c.strOpcode) (by simp [ha, hw1.1, strSize_eq]; omega)
  simp only [List.append_assoc, List.cons_append, List.nil_append] at h
  rw [h, Option.bind_some]
  have h := load_mid (pre ++ [c.atom, l1] ++ w1 ++ [c.type]) (l2 :: (w2 ++ post)) c.useAs
    (a := a + 2 + strSize c.strOpcode) (by simp [ha, hw1.1, strSize_eq]; omega)
  simp only [List.append_assoc, List.cons_append, List.nil_append] at h
  rw [h, Option.bind_some]
  have h := load_mid (pre ++ [c.atom, l1] ++ w1 ++ [c.type, c.useAs]) (w2 ++ post) l2
    (a := a + 3 + strSize c.strOpcode) (by simp [ha, hw1.1, strSize_eq]; omega)
  simp only [List.append_assoc, List.cons_append, List.nil_append] at h
  rw [h, Option.bind_some, e1]
  have h := readMembers_mid hw2 hm (pre ++ [c.atom, l1] ++ w1 ++ [c.type, c.useAs, l2]) post
    (a := a + 4 + strSize c.strOpcode) (by simp [ha, hw1.1, strSize_eq]; omega)
  simp only [List.append_assoc, List.cons_append, List.nil_append] at h
  rw [h, Option.bind_some]

end Verif.Image
