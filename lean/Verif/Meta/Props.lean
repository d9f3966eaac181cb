import Verif.Meta.Spec
/-!
# C174
-/
namespace Verif.Meta

open Verif.Image

inductive IsAll {α : Type} (P : α → List W → Prop) : List α → List W → Prop
  | nil : IsAll P [] []
  | cons {x xs ws ws'} : P x ws → IsAll P xs ws' → IsAll P (x :: xs) (ws ++ ws')

/-- What a writer of elements does. -/
def Writes {α : Type} (P : α → List W → Prop) (w : Mem → Nat → α → Option Mem) (sz : α → Nat) : Prop :=
  ∀ x pre old post, old.length = sz x → ∃ ws, P x ws ∧ ws.length = sz x ∧ w (pre ++ (old ++ post)) pre.length x = some (pre ++ (ws ++ post))

theorem writeAll_mid {α : Type} {P : α → List W → Prop} {w : Mem → Nat → α → Option Mem} {sz : α → Nat} (hw : Writes P w sz) :
    ∀ (xs : List α) (pre old post : Mem), old.length = (xs.map sz).sum →
      ∃ ws, IsAll P xs ws ∧ ws.length = (xs.map sz).sum ∧ writeAll w sz (pre ++ (old ++ post)) pre.length xs = some (pre ++ (ws ++ post))
  | [], pre, old, post, ho => by
    obtain rfl := List.length_eq_zero_iff.mp ho
    exact ⟨[], .nil, rfl, rfl⟩
  | x :: xs, pre, old, post, ho => by
    simp only [List.map_cons, List.sum_cons] at ho ⊢
    obtain ⟨o1, o2, rfl, h1, h2⟩ := splitLen ho
    obtain ⟨w1, p1, l1, e1⟩ := hw x pre o1 (o2 ++ post) h1
    obtain ⟨w2, p2, l2, e2⟩ := writeAll_mid hw xs (pre ++ w1) o2 post h2
    refine ⟨w1 ++ w2, .cons p1 p2, by simp [l1, l2], ?_⟩
    rw [writeAll, List.append_assoc, e1, Option.bind_some]
    simp only [List.append_assoc, List.length_append, l1] at e2 ⊢
    exact e2

def IsSec {α : Type} (P : α → List W → Prop) (l : List α) (ws : List W) : Prop :=
  ∃ w, ws = BitVec.ofNat 32 l.length :: w ∧ IsAll P l w

theorem writeSec_mid {α : Type} {P : α → List W → Prop} {w : Mem → Nat → α → Option Mem} {sz : α → Nat} (hw : Writes P w sz)
    (xs : List α) (pre old post : Mem) {a : Nat} (ha : a = pre.length) (ho : old.length = secSize sz xs) :
    ∃ ws, IsSec P xs ws ∧ ws.length = secSize sz xs ∧ writeSec w sz (pre ++ (old ++ post)) a xs = some (pre ++ (ws ++ post)) := by
  subst ha
  obtain ⟨x0, old, rfl, ho0⟩ := consLen (n := (xs.map sz).sum) (ho.trans (by simp [secSize]; omega))
  obtain ⟨ws, p, l, e⟩ := writeAll_mid hw xs (pre ++ [BitVec.ofNat 32 xs.length]) old post ho0
  refine ⟨_, ⟨ws, rfl, p⟩, by simp [secSize, l]; omega, ?_⟩
  simp only [writeSec, List.cons_append]
  rw [store_mid pre _ x0 _ rfl, Option.bind_some]
  simpa using e

def IsS (s : Str) (ws : List W) : Prop := ∃ w ws', ws = w :: ws' ∧ IsStr s ws'

theorem IsS.length {s : Str} {ws : List W} (h : IsS s ws) : ws.length = strSize s := by
  obtain ⟨w, ws', rfl, h⟩ := h
  simp [h.1, strSize_eq]

def IsE (e : Str × Class) (ws : List W) : Prop := ∃ w1, IsS e.1 w1 ∧ ws = w1 ++ [opcode e.2]

theorem writesStr : Writes IsS writeStr strSize := by
  intro s pre old post ho
  obtain ⟨ws, h, e⟩ := writeStr_mid s pre old post rfl ho
  exact ⟨_, ⟨_, ws, rfl, h⟩, by simp [h.1, strSize_eq], by simpa using e⟩

theorem writesClass : Writes IsClass (fun m a c => Class.write m a c) Class.size := by
  intro c pre old post ho
  obtain ⟨ws, h, e⟩ := c.write_mid pre old post rfl ho
  exact ⟨ws, h, h.length, e⟩

theorem writesEntry : Writes IsE writeEntry entrySize := by
  intro x pre old post ho
  obtain ⟨o1, o2, rfl, h1, h2⟩ := splitLen (a := strSize x.1) (b := 1) ho
  obtain ⟨y, o3, rfl, h3⟩ := consLen (n := 0) h2
  obtain rfl := List.length_eq_zero_iff.mp h3
  obtain ⟨ws, h, l, e⟩ := writesStr x.1 pre o1 (y :: post) h1
  refine ⟨ws ++ [opcode x.2], ⟨ws, h, rfl⟩, by simp [l, entrySize], ?_⟩
  have e' := store_mid (pre ++ ws) post y (opcode x.2) (a := pre.length + strSize x.1) (by simp [l])
  simp only [writeEntry, List.append_assoc, List.cons_append, List.nil_append] at e' ⊢
  rw [e, Option.bind_some, e']

/-- The words of metadata. -/
structure IsMeta (x : Meta) (w1 w2 w3 w4 w5 w6 : List W) : Prop where
  p1 : IsSec IsClass x.byOp w1
  p2 : IsSec IsE x.classes w2
  p3 : IsSec IsE x.sys w3
  p4 : IsSec IsS x.classNames w4
  p5 : IsSec IsS x.opNames w5
  p6 : IsSec IsS x.fnNames w6
  l1 : w1.length = secSize Class.size x.byOp
  l2 : w2.length = secSize entrySize x.classes
  l3 : w3.length = secSize entrySize x.sys
  l4 : w4.length = secSize strSize x.classNames
  l5 : w5.length = secSize strSize x.opNames
  l6 : w6.length = secSize strSize x.fnNames

theorem write_mid (x : Meta) (pre old post : Mem) (ho : old.length = x.size) :
    ∃ w1 w2 w3 w4 w5 w6, IsMeta x w1 w2 w3 w4 w5 w6 ∧
      x.write (pre ++ (old ++ post)) pre.length = some (pre ++ (w1 ++ (w2 ++ (w3 ++ (w4 ++ (w5 ++ (w6 ++ post))))))) := by
  obtain ⟨old, o6, rfl, ho, h6⟩ := splitLen ho
  obtain ⟨old, o5, rfl, ho, h5⟩ := splitLen ho
  obtain ⟨old, o4, rfl, ho, h4⟩ := splitLen ho
  obtain ⟨old, o3, rfl, ho, h3⟩ := splitLen ho
  obtain ⟨o1, o2, rfl, h1, h2⟩ := splitLen ho
  obtain ⟨w1, p1, l1, e1⟩ := writeSec_mid writesClass x.byOp pre o1 (o2 ++ (o3 ++ (o4 ++ (o5 ++ (o6 ++ post))))) rfl h1
  obtain ⟨w2, p2, l2, e2⟩ := writeSec_mid writesEntry x.classes (pre ++ w1) o2 (o3 ++ (o4 ++ (o5 ++ (o6 ++ post)))) rfl h2
  obtain ⟨w3, p3, l3, e3⟩ := writeSec_mid writesEntry x.sys (pre ++ w1 ++ w2) o3 (o4 ++ (o5 ++ (o6 ++ post))) rfl h3
  obtain ⟨w4, p4, l4, e4⟩ := writeSec_mid writesStr x.classNames (pre ++ w1 ++ w2 ++ w3) o4 (o5 ++ (o6 ++ post)) rfl h4
  obtain ⟨w5, p5, l5, e5⟩ := writeSec_mid writesStr x.opNames (pre ++ w1 ++ w2 ++ w3 ++ w4) o5 (o6 ++ post) rfl h5
  obtain ⟨w6, p6, l6, e6⟩ := writeSec_mid writesStr x.fnNames (pre ++ w1 ++ w2 ++ w3 ++ w4 ++ w5) o6 post rfl h6
  refine ⟨w1, w2, w3, w4, w5, w6, ⟨p1, p2, p3, p4, p5, p6, l1, l2, l3, l4, l5, l6⟩, ?_⟩
  simp only [List.append_assoc, List.length_append, l1, l2, l3, l4, l5] at e1 e2 e3 e4 e5 e6 ⊢
  simp only [Meta.write, Option.bind_eq_bind, ← Nat.add_assoc] at e1 e2 e3 e4 e5 e6 ⊢
  rw [e1, Option.bind_some, e2, Option.bind_some, e3, Option.bind_some, e4, Option.bind_some, e5, Option.bind_some, e6]

/-- Writing succeeds and leaves the rest of the buffer alone. -/
theorem fits (x : Meta) (m : Mem) (b : Nat) (hb : b + x.size ≤ m.length) :
    ∃ m', Fits x m b m' ∧ ∃ pre post w1 w2 w3 w4 w5 w6, IsMeta x w1 w2 w3 w4 w5 w6 ∧ pre.length = b ∧
      m' = pre ++ (w1 ++ (w2 ++ (w3 ++ (w4 ++ (w5 ++ (w6 ++ post)))))) := by
  obtain ⟨pre, old, post, rfl, rfl, ho⟩ := split3 m b x.size hb
  obtain ⟨w1, w2, w3, w4, w5, w6, h, e⟩ := write_mid x pre old post ho
  refine ⟨_, ⟨e, fun a ha => ?_⟩, pre, post, w1, w2, w3, w4, w5, w6, h, rfl, rfl⟩
  have hl : (w1 ++ (w2 ++ (w3 ++ (w4 ++ (w5 ++ w6))))).length = x.size := by
    simp only [List.length_append, h.l1, h.l2, h.l3, h.l4, h.l5, h.l6, Meta.size]; omega
  have := frame_of_mid pre old (w1 ++ (w2 ++ (w3 ++ (w4 ++ (w5 ++ w6))))) post (by omega) a (by omega)
  simpa only [List.append_assoc] using this

/-- What a reader of elements does. -/
def Reads {α β : Type} (P : α → List W → Prop) (r : Mem → Nat → Nat → Option β) (f : α → β) (sz : α → Nat) (l : List α) : Prop :=
  ∀ x ∈ l, ∀ ws (pre post : Mem) b o, P x ws → pre.length = b + o → o + sz x < 65536 → r (pre ++ (ws ++ post)) b o = some (f x) ∧ ws.length = sz x

theorem readAll_mid {α β : Type} {P : α → List W → Prop} {r : Mem → Nat → Nat → Option β} {f : α → β} {sz : α → Nat} {sz' : β → Nat}
    (hz : ∀ x, sz' (f x) = sz x) {l : List α} {ws : List W} (h : IsAll P l ws) :
    Reads P r f sz l → ∀ (pre post : Mem) b o, pre.length = b + o → o + (l.map sz).sum < 65536 →
      readAll r sz' (pre ++ (ws ++ post)) b l.length o = some (l.map f, o + (l.map sz).sum) := by
  induction h with
  | nil => intro _ pre post b o _ _; rfl
  | @cons x xs ws ws' p q ih =>
    intro hr pre post b o hp hs
    simp only [List.map_cons, List.sum_cons] at hs ⊢
    obtain ⟨e, l⟩ := hr x (by simp) ws pre (ws' ++ post) b o p hp (by omega)
    have := ih (fun y hy => hr y (by simp [hy])) (pre ++ ws) post b (o + sz x) (by simp [hp, l]; omega) (by omega)
    simp only [List.append_assoc] at this ⊢
    rw [List.length_cons, readAll, e, Option.bind_some, hz, show w16 (o + sz x) = o + sz x from Nat.mod_eq_of_lt (by omega), this]
    simp [Nat.add_assoc]

theorem len_le_sum {α : Type} {sz : α → Nat} (h : ∀ x, 0 < sz x) : ∀ l : List α, l.length ≤ (l.map sz).sum
  | [] => Nat.le_refl _
  | x :: l => by
    have := len_le_sum h l
    have := h x
    simp; omega

theorem readSec_mid {α β : Type} {P : α → List W → Prop} {r : Mem → Nat → Nat → Option β} {f : α → β} {sz : α → Nat} {sz' : β → Nat}
    (hz : ∀ x, sz' (f x) = sz x) (h0 : ∀ x, 0 < sz x) {l : List α} {ws : List W} (h : IsSec P l ws)
    (hr : Reads P r f sz l) (pre post : Mem) (b o : Nat) (hp : pre.length = b + o) (hs : o + secSize sz l < 65536) :
    readSec r sz' (pre ++ (ws ++ post)) b o = some (l.map f, o + secSize sz l) := by
  obtain ⟨w, rfl, h⟩ := h
  have hl := len_le_sum h0 l
  simp only [secSize] at hs ⊢
  rw [readSec, List.cons_append, load_mid pre _ _ hp.symm, Option.bind_some, toNat_len (by omega),
    show w16 l.length = l.length from Nat.mod_eq_of_lt (by omega), show w16 (o + 1) = o + 1 from Nat.mod_eq_of_lt (by omega)]
  have := readAll_mid (sz' := sz') hz h hr (pre ++ [BitVec.ofNat 32 l.length]) post b (o + 1) (by simp [hp]; omega) (by omega)
  simp only [List.append_assoc, List.cons_append, List.nil_append] at this
  rw [this, Nat.add_assoc]

theorem readsStr {l : List Str} (h : ∀ s ∈ l, (0#8) ∉ s) : Reads IsS rdStr id strSize l := by
  intro s hs ws pre post b o p hp _
  have hl := p.length
  obtain ⟨w, ws', rfl, p⟩ := p
  exact ⟨readStr_mid s [] (h s hs) ws' pre post w p hp.symm, hl⟩

theorem readsEntry {l : List (Str × Class)} (h : ∀ e ∈ l, (0#8) ∉ e.1) : Reads IsE rdEntry (fun e => (e.1, opcode e.2)) entrySize l := by
  intro e he ws pre post b o p hp hs
  obtain ⟨w1, p, rfl⟩ := p
  simp only [entrySize] at hs ⊢
  obtain ⟨r, hl⟩ := readsStr (l := [e.1]) (by simpa using h e he) e.1 (by simp) w1 pre (opcode e.2 :: post) b o p hp (by omega)
  refine ⟨?_, by simp [hl]⟩
  have := load_mid (pre ++ w1) post (opcode e.2) (a := b + (o + strSize e.1)) (by simp [hl, hp]; omega)
  simp only [rdEntry, List.append_assoc, List.cons_append, List.nil_append] at this r ⊢
  rw [r, Option.bind_some, id, show w16 (o + strSize e.1) = o + strSize e.1 from Nat.mod_eq_of_lt (by omega), this, Option.map_some]

theorem readsClass {l : List Class} (h : ∀ c ∈ l, c.WF) {s0 : Str} (h0 : s0 = [] ∨ l = []) : Reads IsClass (rdClass s0) id Class.size l := by
  rcases h0 with rfl | rfl
  · intro c hc ws pre post b o p hp _
    exact ⟨c.readInto_mid (h c hc).name (h c hc).members (h c hc).count p pre post hp.symm, p.length⟩
  · intro c hc; cases hc

theorem opcode_number (c : Class) : (opcode c).toNat = number c := by
  have h : (0xFFF#32).toNat = 2 ^ 12 - 1 := rfl
  rw [opcode, number, BitVec.toNat_and, h, Nat.and_two_pow_sub_one_eq_mod, BitVec.toNat_ushiftRight, Nat.shiftRight_eq_div_pow]

theorem resolve_all {cs : List Class} : ∀ (l acc : List (Str × Class)), (∀ e ∈ l, cs[number e.2]? = some e.2) →
    ((acc ++ l).map Prod.fst).Nodup → resolve cs (l.map fun e => (e.1, opcode e.2)) acc = some (acc ++ l)
  | [], acc, _, _ => by simp [resolve]
  | e :: l, acc, h, hn => by
    have hni : e.1 ∉ acc.map Prod.fst := by
      intro hm
      rw [List.map_append, List.nodup_append] at hn
      exact hn.2.2 _ hm e.1 (by simp) rfl
    rw [List.map_cons, resolve, opcode_number, h e (by simp), Option.bind_some, insert, if_neg hni,
      resolve_all l (acc ++ [(e.1, e.2)]) (fun x hx => h x (by simp [hx])) (by simpa using hn)]
    simp

theorem strSize_pos (s : Str) : 0 < strSize s := by rw [strSize_eq]; omega

theorem read_back (x : Meta) (hx : x.WF) (hn : x.NoOps) (hs : x.size < 65536) {s0 : Str} (h0 : s0 = [] ∨ x.byOp = [])
    (pre post : Mem) {w1 w2 w3 w4 w5 w6 : List W} (h : IsMeta x w1 w2 w3 w4 w5 w6) :
    readWith s0 (pre ++ (w1 ++ (w2 ++ (w3 ++ (w4 ++ (w5 ++ (w6 ++ post))))))) pre.length = some x := by
  have hE : ∀ e ∈ x.classes, (0#8) ∉ e.1 := fun e he => hx.entries e (by simp [he])
  have hY : ∀ e ∈ x.sys, (0#8) ∉ e.1 := fun e he => hx.entries e (by simp [he])
  simp only [Meta.size] at hs
  have e1 := readSec_mid (f := id) (sz := Class.size) (sz' := Class.size) (fun _ => rfl) (fun c => by simp [Class.size]; omega) h.p1 (readsClass hx.byOp h0) pre
    (w2 ++ (w3 ++ (w4 ++ (w5 ++ (w6 ++ post))))) pre.length 0 rfl (by omega)
  have e2 := readSec_mid (f := fun e : Str × Class => (e.1, opcode e.2)) (sz := entrySize) (sz' := fun e : Str × W => strSize e.1 + 1) (fun _ => rfl) (fun c => by simp [entrySize]) h.p2 (readsEntry hE) (pre ++ w1)
    (w3 ++ (w4 ++ (w5 ++ (w6 ++ post)))) pre.length (0 + secSize Class.size x.byOp) (by simp [h.l1]) (by omega)
  have e3 := readSec_mid (f := fun e : Str × Class => (e.1, opcode e.2)) (sz := entrySize) (sz' := fun e : Str × W => strSize e.1 + 1) (fun _ => rfl) (fun c => by simp [entrySize]) h.p3 (readsEntry hY) (pre ++ w1 ++ w2)
    (w4 ++ (w5 ++ (w6 ++ post))) pre.length (0 + secSize Class.size x.byOp + secSize entrySize x.classes) (by simp [h.l1, h.l2]) (by omega)
  have e4 := readSec_mid (f := id) (sz := strSize) (sz' := strSize) (fun _ => rfl) strSize_pos h.p4 (readsStr fun s hs => hx.names s (by simp [hs])) (pre ++ w1 ++ w2 ++ w3)
    (w5 ++ (w6 ++ post)) pre.length (0 + secSize Class.size x.byOp + secSize entrySize x.classes + secSize entrySize x.sys)
    (by simp [h.l1, h.l2, h.l3]; omega) (by omega)
  have e5 := readSec_mid (f := id) (sz := strSize) (sz' := strSize) (fun _ => rfl) strSize_pos h.p5 (readsStr fun s hs => hx.names s (by simp [hs])) (pre ++ w1 ++ w2 ++ w3 ++ w4)
    (w6 ++ post) pre.length (0 + secSize Class.size x.byOp + secSize entrySize x.classes + secSize entrySize x.sys + secSize strSize x.classNames)
    (by simp [h.l1, h.l2, h.l3, h.l4]; omega) (by omega)
  have e6 := readSec_mid (f := id) (sz := strSize) (sz' := strSize) (fun _ => rfl) strSize_pos h.p6 (readsStr fun s hs => hx.names s (by simp [hs]))
    (pre ++ w1 ++ w2 ++ w3 ++ w4 ++ w5) post pre.length
    (0 + secSize Class.size x.byOp + secSize entrySize x.classes + secSize entrySize x.sys + secSize strSize x.classNames + secSize strSize x.opNames)
    (by simp [h.l1, h.l2, h.l3, h.l4, h.l5]; omega) (by omega)
  have r1 := resolve_all (cs := x.byOp) x.classes [] (fun e he => hn e (by simp [he])) (by simpa using hx.keys)
  have r2 := resolve_all (cs := x.byOp) x.sys [] (fun e he => hn e (by simp [he])) (by simpa using hx.sysKeys)
  simp only [List.append_assoc, List.map_id_fun, id_eq] at e1 e2 e3 e4 e5 e6
  simp only [readWith, Option.bind_eq_bind]
  rw [e1, Option.bind_some]; dsimp only
  rw [e2, Option.bind_some]; dsimp only
  rw [e3, Option.bind_some]; dsimp only
  rw [e4, Option.bind_some]; dsimp only
  rw [e5, Option.bind_some]; dsimp only
  rw [e6, Option.bind_some]; dsimp only
  rw [r1, Option.bind_some, r2, Option.bind_some]
  rfl

theorem readAll_length {β : Type} {r : Mem → Nat → Nat → Option β} {sz : β → Nat} {m : Mem} {b : Nat} : ∀ {n o : Nat} {p : List β × Nat},
    readAll r sz m b n o = some p → p.1.length = n
  | 0, _, _, h => by cases h; rfl
  | n + 1, o, p, h => by
    simp only [readAll, Option.bind_eq_some_iff, Option.map_eq_some_iff] at h
    obtain ⟨_, _, q, hq, rfl⟩ := h
    simp [readAll_length hq]

theorem readAll_mem {β : Type} {r : Mem → Nat → Nat → Option β} {sz : β → Nat} {m : Mem} {b : Nat} : ∀ {n o : Nat} {p : List β × Nat},
    readAll r sz m b n o = some p → ∀ x ∈ p.1, ∃ o', r m b o' = some x
  | 0, _, _, h, x, hx => by cases h; cases hx
  | n + 1, o, p, h, x, hx => by
    simp only [readAll, Option.bind_eq_some_iff, Option.map_eq_some_iff] at h
    obtain ⟨y, hy, q, hq, rfl⟩ := h
    rcases List.mem_cons.1 hx with rfl | hx
    · exact ⟨o, hy⟩
    · exact readAll_mem hq x hx

theorem readSec_length {β : Type} {r : Mem → Nat → Nat → Option β} {sz : β → Nat} {m : Mem} {b o : Nat} {p : List β × Nat}
    (h : readSec r sz m b o = some p) : p.1.length < 65536 := by
  simp only [readSec, Option.bind_eq_some_iff] at h
  obtain ⟨c, _, h⟩ := h
  rw [readAll_length h]
  exact Nat.mod_lt _ (by decide)

/-- Whatever is read: every class has a name that begins with "undefined", and there are fewer than 65536 names of a kind. -/
theorem read_any {m : Mem} {b : Nat} {x : Meta} (h : Meta.read m b = some x) :
    (∀ c ∈ x.byOp, ∃ s, c.strOpcode = undefinedStr ++ s) ∧ x.classNames.length < 65536 ∧ x.opNames.length < 65536 ∧ x.fnNames.length < 65536 := by
  simp only [Meta.read, readWith, Option.bind_eq_bind, Option.bind_eq_some_iff] at h
  obtain ⟨p1, h1, p2, h2, p3, h3, p4, h4, p5, h5, p6, h6, c1, _, c2, _, e⟩ := h
  cases e
  refine ⟨fun c hc => ?_, readSec_length h4, readSec_length h5, readSec_length h6⟩
  simp only [readSec, Option.bind_eq_some_iff] at h1
  obtain ⟨k, _, h1⟩ := h1
  obtain ⟨o, ho⟩ := readAll_mem h1 c hc
  exact C59_class_record_violated.2 _ _ _ ho

/-- An object class "a" of opcode 0, the operator "b" of opcode 0, and the class "c" of opcode 1. -/
def clsA : Class := ⟨0xC1000002#32, [97#8], 0, 0, [⟨1, 2, [], 3, [98#8, 99#8]⟩]⟩
def opB : Class := ⟨0xC5000001#32, [98#8], 0, 0, []⟩
def clsC : Class := ⟨0xC1000100#32, [99#8], 0, 0, []⟩

def withOp : Meta := ⟨[clsA], [([97#8], clsA), ([98#8], opB)], [], [[97#8]], [[98#8]], []⟩
def noOps : Meta := ⟨[clsA, clsC], [([99#8], clsC), ([97#8], clsA)], [([97#8], clsA)], [[97#8], [99#8]], [[98#8]], [[100#8, 101#8]]⟩
def names : Meta := ⟨[], [], [], [[97#8], [98#8, 97#8, 97#8, 97#8]], [[98#8]], [[100#8, 101#8]]⟩

theorem clsA_wf : clsA.WF := ⟨by decide, by intro x hx; simp only [clsA, List.mem_singleton] at hx; subst hx; exact ⟨by decide, by decide⟩, by decide⟩
theorem clsC_wf : clsC.WF := ⟨by decide, (by intro x hx; cases hx), by decide⟩

theorem withOp_wf : withOp.WF where
  byOp := by intro c hc; simp only [withOp, List.mem_singleton] at hc; subst hc; exact clsA_wf
  entries := by decide
  names := by decide
  keys := by decide
  sysKeys := by decide

theorem withOp_made : withOp.Made where
  classes := by
    intro e he
    simp only [withOp, List.mem_cons, List.not_mem_nil, or_false] at he
    rcases he with rfl | rfl
    · left; decide
    · right; left; decide
  sys := by intro e he; cases he

theorem noOps_wf : noOps.WF where
  byOp := by
    intro c hc
    simp only [noOps, List.mem_cons, List.not_mem_nil, or_false] at hc
    rcases hc with rfl | rfl
    · exact clsA_wf
    · exact clsC_wf
  entries := by decide
  names := by decide
  keys := by decide
  sysKeys := by decide

theorem names_wf : names.WF where
  byOp := by intro c hc; cases hc
  entries := by decide
  names := by decide
  keys := by decide
  sysKeys := by decide

/-- C174 does not hold. No buffer is read as metadata that has a class of a name that does not begin with "undefined", or 65536 names
of a kind.  Even if classes were read properly, an operator would be read as the class of its opcode. -/
theorem C174_metadata_violated : ¬ C174_full ∧
    (∀ m b x, Meta.read m b = some x →
      (∀ c ∈ x.byOp, ∃ s, c.strOpcode = undefinedStr ++ s) ∧ x.classNames.length < 65536 ∧ x.opNames.length < 65536 ∧ x.fnNames.length < 65536) ∧
    withOp.WF ∧ withOp.Made ∧
    ∃ m', Fits withOp (List.replicate 60 0) 3 m' ∧ ∃ y, readWith [] m' 3 = some y ∧ y.classes = [([97#8], clsA), ([98#8], clsA)] := by
  refine ⟨fun h => ?_, fun m b x h => read_any h, withOp_wf, withOp_made, ?_⟩
  · obtain ⟨m', _, e⟩ := h withOp withOp_wf withOp_made (List.replicate 60 0) 3 (by decide)
    obtain ⟨s, hs⟩ := (read_any e).1 clsA (by simp [withOp])
    exact absurd (congrArg List.length hs) (by simp [clsA, undefinedStr])
  · obtain ⟨m', hf, -⟩ := fits withOp (List.replicate 60 0) 3 (by decide)
    refine ⟨m', hf, ?_⟩
    have e : (withOp.write (List.replicate 60 0) 3).bind (fun m => (readWith [] m 3).map Meta.classes) = some [([97#8], clsA), ([98#8], clsA)] := by
      decide +kernel
    rw [hf.1, Option.bind_some, Option.map_eq_some_iff] at e
    exact e

/-- C174 in part: writing fills no other words than the `get_size` words it is given, for all metadata; metadata without classes and
of less than 65536 words is read back; and so is metadata with classes but without operators and functions, if classes have empty names before
they are read.  Missing: classes as `read` makes them, operators and functions, and larger metadata. -/
theorem C174_metadata_partial (x : Meta) (m : Mem) (b : Nat) (hb : b + x.size ≤ m.length) :
    ∃ m', Fits x m b m' ∧ (x.WF → x.NoOps → x.size < 65536 →
      readWith [] m' b = some x ∧ (x.byOp = [] → Meta.read m' b = some x)) := by
  obtain ⟨m', hf, pre, post, w1, w2, w3, w4, w5, w6, h, rfl, rfl⟩ := fits x m b hb
  exact ⟨_, hf, fun hx hn hs => ⟨read_back x hx hn hs (.inl rfl) pre post h, fun h0 => read_back x hx hn hs (.inr h0) pre post h⟩⟩

theorem C174_nonvacuous : noOps.WF ∧ noOps.NoOps ∧ noOps.size = 42 ∧ names.WF ∧ names.NoOps ∧ names.size = 15 ∧ names.byOp = [] :=
  ⟨noOps_wf, by unfold Meta.NoOps; decide, by decide, names_wf, by unfold Meta.NoOps; decide, by decide, rfl⟩

end Verif.Meta
