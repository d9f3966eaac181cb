import Verif.Image.ClassLemmas
/-!
# Properties C11 (records), C12 (images), C59 (class records), C60 (object map)
-/
namespace Verif.Image

theorem split3 (m : Mem) (b n : Nat) (h : b + n ≤ m.length) :
    ∃ pre old post, m = pre ++ (old ++ post) ∧ pre.length = b ∧ old.length = n := by
  refine ⟨m.take b, (m.drop b).take n, (m.drop b).drop n, ?_, by simp; omega, by simp; omega⟩
  rw [List.take_append_drop, List.take_append_drop]

/-- If `m2` shows the words `ws` from `b2` on, it splits around them. -/
theorem split_at_words (ws : List W) (m2 : Mem) (b2 : Nat) (hn : ws ≠ [])
    (h : ∀ i, i < ws.length → m2[b2 + i]? = ws[i]?) :
    ∃ pre post, m2 = pre ++ (ws ++ post) ∧ pre.length = b2 := by
  have hl : b2 + ws.length ≤ m2.length := by
    have hp : 0 < ws.length := List.length_pos_iff.mpr hn
    have := h (ws.length - 1) (by omega)
    rw [List.getElem?_eq_getElem (show ws.length - 1 < ws.length by omega)] at this
    have := (List.getElem?_eq_some_iff.mp this).1
    omega
  obtain ⟨pre, old, post, rfl, hp, ho⟩ := split3 m2 b2 ws.length hl
  refine ⟨pre, post, ?_, hp⟩
  have : old = ws := by
    apply List.ext_getElem?
    intro i
    by_cases hi : i < ws.length
    · rw [← h i hi, List.getElem?_append_right (by omega), List.getElem?_append_left (by omega)]
      congr 1; omega
    · rw [List.getElem?_eq_none (by omega), List.getElem?_eq_none (by omega)]
  rw [this]

theorem frame_of_mid (pre old ws post : Mem) (h : old.length = ws.length) (a : Nat)
    (ha : a < pre.length ∨ pre.length + ws.length ≤ a) :
    (pre ++ (ws ++ post))[a]? = (pre ++ (old ++ post))[a]? := by
  rcases ha with ha | ha
  · rw [List.getElem?_append_left ha, List.getElem?_append_left ha]
  · rw [List.getElem?_append_right (by omega), List.getElem?_append_right (by omega),
      List.getElem?_append_right (by omega), List.getElem?_append_right (by omega), h]

theorem mid_get (pre ws post : Mem) (i : Nat) (hi : i < ws.length) :
    (pre ++ (ws ++ post))[pre.length + i]? = ws[i]? := by
  rw [List.getElem?_append_right (by omega), List.getElem?_append_left (by omega)]
  congr 1; omega

/-! ## C11 -/

/-- C11 for views: writing a view of `size` words at `b` succeeds if the room is there, touches no
other word, and any buffer showing those same `size` words anywhere reads back as the same view. -/
theorem C11_view_record (v : SysView) (hs : v.size < 2 ^ 32) (m : Mem) (b : Nat)
    (hb : b + v.size ≤ m.length) :
    ∃ m', v.write m b = some m' ∧ m'.length = m.length ∧
      (∀ a, a < b ∨ b + v.size ≤ a → m'[a]? = m[a]?) ∧
      (∀ m2 b2, (∀ i, i < v.size → m2[b2 + i]? = m'[b + i]?) → SysView.read m2 b2 = some v) := by
  obtain ⟨pre, old, post, rfl, rfl, ho⟩ := split3 m b v.size hb
  have hl := v.enc_length
  refine ⟨_, v.write_mid pre old post rfl ho, by simp; omega, ?_, ?_⟩
  · intro a ha
    exact frame_of_mid pre old v.enc post (by omega) a (by omega)
  · intro m2 b2 h
    obtain ⟨p2, q2, rfl, rfl⟩ := split_at_words v.enc m2 b2 (by simp [SysView.enc]) (by
      intro i hi
      rw [h i (by omega), mid_get _ _ _ _ hi])
    exact v.read_mid hs p2 q2 rfl

/-- C11 for objects. -/
theorem C11_object_record (o : SysObject) (hs : o.size < 2 ^ 32) (m : Mem) (b : Nat)
    (hb : b + o.size ≤ m.length) :
    ∃ m', o.write m b = some m' ∧ m'.length = m.length ∧
      (∀ a, a < b ∨ b + o.size ≤ a → m'[a]? = m[a]?) ∧
      (∀ m2 b2, (∀ i, i < o.size → m2[b2 + i]? = m'[b + i]?) → SysObject.read m2 b2 = some o) := by
  obtain ⟨pre, old, post, rfl, rfl, ho⟩ := split3 m b o.size hb
  have hl := o.enc_length
  refine ⟨_, o.write_mid pre old post rfl ho, by simp; omega, ?_, ?_⟩
  · intro a ha
    exact frame_of_mid pre old o.enc post (by omega) a (by omega)
  · intro m2 b2 h
    obtain ⟨p2, q2, rfl, rfl⟩ := split_at_words o.enc m2 b2 (by simp [SysObject.enc]) (by
      intro i hi
      rw [h i (by omega), mid_get _ _ _ _ hi])
    exact o.read_mid hs p2 q2 rfl

/-- Two records written one after the other are both read back. -/
theorem C11_concatenation (o1 o2 : SysObject) (h1 : o1.size < 2 ^ 32) (h2 : o2.size < 2 ^ 32)
    (m : Mem) (b : Nat) (hb : b + o1.size + o2.size ≤ m.length) :
    ∃ m1 m2, o1.write m b = some m1 ∧ o2.write m1 (b + o1.size) = some m2 ∧
      SysObject.read m2 b = some o1 ∧ SysObject.read m2 (b + o1.size) = some o2 := by
  obtain ⟨m1, w1, l1, _, r1⟩ := C11_object_record o1 h1 m b (by omega)
  obtain ⟨m2, w2, l2, f2, r2⟩ := C11_object_record o2 h2 m1 (b + o1.size) (by omega)
  exact ⟨m1, m2, w1, w2, r1 m2 b (fun i hi => f2 _ (by omega)), r2 m2 _ (fun _ _ => rfl)⟩

/-- A record with code, references, markers and two views. -/
example : (SysObject.mk 7 [1, 2] [3] [4] [⟨[5], [6]⟩, ⟨[], []⟩]).size = 15 := by decide

/-! ## C12 -/

/-- What the memory offers: the whole image has less than 2^32 words, names are keyed by object
identifier and contain no NUL character. -/
structure WF (os : List SysObject) (names : Names) : Prop where
  size : os.length + codeSize os + names.size < 2 ^ 32
  keys : (names.map Prod.fst).Nodup
  clean : ∀ e ∈ names, (0#8) ∉ e.2

/-- Saving the image built from `os` and `names` (whatever the uninitialised buffer contained) and
loading the file gives back time stamp, objects in order, and names. -/
def LoadsBack (ts : BitVec 64) (os : List SysObject) (names : Names) : Prop :=
  ∀ buf : Mem, buf.length = os.length + codeSize os + names.size →
    ∃ r im' r' im2, serialize buf (build ts os names) = some (r, im') ∧
      fileRead (fileWrite r) = some r' ∧ loadImage r' = some im2 ∧
      im2.ts = ts ∧ im2.objects = os ∧ im2.names = names

def C12_full : Prop := ∀ ts os names, WF os names → LoadsBack ts os names

theorem foldl_addSysObject (os : List SysObject) : ∀ (im : Image) (off : Nat),
    (os.foldl addSysObject (im, off)).1.objects = im.objects ++ os ∧
    (os.foldl addSysObject (im, off)).1.map.length = im.map.length + os.length ∧
    (os.foldl addSysObject (im, off)).1.ts = im.ts ∧
    (∀ i, i < im.map.length → (os.foldl addSysObject (im, off)).1.map[i]? = im.map[i]?) ∧
    (∀ i, i < os.length → (os.foldl addSysObject (im, off)).1.map[im.map.length + i]? =
      some (BitVec.ofNat 16 (off + codeSize (os.take i)))) := by
  induction os with
  | nil => intro im off; simp
  | cons o os ih =>
    intro im off
    obtain ⟨h1, h2, h3, h4, h5⟩ := ih (addSysObject (im, off) o).1 (off + o.size)
    simp only [List.foldl_cons]
    simp only [addSysObject, List.length_append, List.length_cons, List.length_nil] at h1 h2 h3 h4 h5
    refine ⟨by simpa [addSysObject] using h1, by simp only [addSysObject, List.length_cons]; omega, h3, ?_, ?_⟩
    · intro i hi
      rw [show addSysObject (im, off) o = ({ im with objects := im.objects ++ [o], map := im.map ++ [BitVec.ofNat 16 off] }, off + o.size) from rfl, h4 i (by omega), List.getElem?_append_left hi]
    · intro i hi
      rw [show addSysObject (im, off) o = ({ im with objects := im.objects ++ [o], map := im.map ++ [BitVec.ofNat 16 off] }, off + o.size) from rfl]
      cases i with
      | zero =>
        rw [h4 _ (by omega)]
        simp [codeSize]
      | succ i =>
        have := h5 i (by simpa using hi)
        rw [show im.map.length + (i + 1) = im.map.length + (0 + 1) + i by omega, this]
        simp only [List.take_succ_cons, codeSize, List.map_cons, List.sum_cons]
        congr 2; omega

theorem build_objects (ts os names) : (build ts os names).objects = os := by
  simpa [build] using (foldl_addSysObject os { ts := ts, map := [], objects := [], names := [] } 0).1
theorem build_map_length (ts os names) : (build ts os names).map.length = os.length := by
  simpa [build] using (foldl_addSysObject os { ts := ts, map := [], objects := [], names := [] } 0).2.1
theorem build_ts (ts os names) : (build ts os names).ts = ts :=
  (foldl_addSysObject os { ts := ts, map := [], objects := [], names := [] } 0).2.2.1
theorem build_names (ts os names) : (build ts os names).names = names := rfl
theorem build_map (ts os names) (i : Nat) (hi : i < os.length) :
    (build ts os names).map[i]? = some (BitVec.ofNat 16 (codeSize (os.take i))) := by
  have := (foldl_addSysObject os { ts := ts, map := [], objects := [], names := [] } 0).2.2.2.2 i hi
  simpa [build] using this

theorem fileRead_fileWrite (r : RImage)
    (h : r.data.length = r.mapSize.toNat + r.codeSize.toNat + r.namesSize.toNat) :
    fileRead (fileWrite r) = some r := by
  obtain ⟨ts, ms, cs, ns, data⟩ := r
  simp only at h
  have e : ((ts >>> 32).setWidth 32).setWidth 64 <<< 32 ||| (ts.setWidth 32).setWidth 64 = ts := by
    apply BitVec.eq_of_getLsbD_eq
    intro i hi
    simp only [BitVec.getLsbD_or, BitVec.getLsbD_shiftLeft, BitVec.getLsbD_setWidth,
      BitVec.getLsbD_ushiftRight]
    by_cases h : i < 32
    · simp [h]; omega
    · have : 32 + (i - 32) = i := by omega
      have h3 : i - 32 < 32 := by omega
      have h4 : i - 32 < 64 := by omega
      simp [*]
  simp only [fileWrite, List.cons_append, List.nil_append, fileRead]
  rw [if_pos (by omega), e, ← h, List.take_length]

theorem le_sum_names {ns : Names} {e : W × List Byte} (h : e ∈ ns) :
    strWords e.2 < ns.size := by
  induction ns with
  | nil => cases h
  | cons x ns ih =>
    simp only [Names.size, List.map_cons, List.sum_cons]
    rcases List.mem_cons.mp h with rfl | h
    · omega
    · have := ih h
      simp only [Names.size] at this; omega

theorem length_lt_names (ns : Names) : ns.length < ns.size := by
  induction ns with
  | nil => simp [Names.size]
  | cons x ns ih => simp [Names.size] at *; omega

/-- The words of a serialised image. -/
theorem serialize_spec (im : Image) (buf : Mem)
    (hb : buf.length = im.map.length + codeSize im.objects + im.names.size) :
    ∃ nw, IsNames im.names nw ∧
      serialize buf im = some (⟨im.ts, BitVec.ofNat 32 im.map.length,
        BitVec.ofNat 32 (codeSize im.objects), BitVec.ofNat 32 im.names.size,
        (shift (BitVec.ofNat 16 im.map.length) im.map).map (BitVec.setWidth 32) ++
          (encObjects im.objects ++ (BitVec.ofNat 32 im.names.length :: nw))⟩,
        { im with map := shift (BitVec.ofNat 16 im.map.length) im.map }) := by
  rw [Nat.add_assoc] at hb
  obtain ⟨o1, rest, rfl, h1, hb⟩ := splitLen hb
  obtain ⟨o2, o3, rfl, h2, h3⟩ := splitLen hb
  simp only [Names.size] at h3
  obtain ⟨x, o3, rfl, h3'⟩ := consLen (h3.trans (Nat.add_comm _ _))
  generalize hms : (shift (BitVec.ofNat 16 im.map.length) im.map).map (BitVec.setWidth 32) = ms
  have hmsl : ms.length = im.map.length := by rw [← hms]; simp [shift]
  have e1 := storeList_mid ms [] o1 (o2 ++ x :: o3) (a := 0) rfl (by omega)
  have e2 := writeObjects_mid im.objects ms o2 (x :: o3) (a := im.map.length) hmsl.symm h2
  have e3 := store_mid (ms ++ encObjects im.objects) o3 x (BitVec.ofNat 32 im.names.length)
    (a := im.map.length + codeSize im.objects) (by simp [hmsl, encObjects_length])
  obtain ⟨nw, hnw, e4⟩ := writeNames_mid im.names
    (ms ++ encObjects im.objects ++ [BitVec.ofNat 32 im.names.length]) o3 []
    (a := im.map.length + codeSize im.objects + 1) (by simp [hmsl, encObjects_length]; omega) h3'
  refine ⟨nw, hnw, ?_⟩
  simp only [List.append_assoc, List.nil_append, List.append_nil, List.cons_append] at e1 e2 e3 e4
  simp only [serialize, hms, e1, e2, e3, e4, Option.bind_some, Names.write]

/-- C12, the part that holds (missing: code segments in which an object starts at offset 65536 or
later, and images with 65536 objects or more). -/
theorem C12_image_round_trip_partial (ts : BitVec 64) (os : List SysObject) (names : Names)
    (wf : WF os names) (hcount : os.length < 65536)
    (hoff : ∀ n, n < os.length → codeSize (os.take n) < 65536) : LoadsBack ts os names := by
  intro buf hbuf
  obtain ⟨wsize, wkeys, wclean⟩ := wf
  obtain ⟨nw, hnw, hser⟩ := serialize_spec (build ts os names) buf
    (by rw [build_objects, build_map_length]; exact hbuf)
  rw [build_objects, build_map_length, build_ts, build_names] at hser
  rw [build_names] at hnw
  have hnl := length_lt_names names
  have t1 := toNat_len (n := os.length) (by omega)
  have t2 := toNat_len (n := codeSize os) (by omega)
  have t3 := toNat_len (n := names.size) (by omega)
  have t4 := toNat_len (n := names.length) (by omega)
  generalize hms : (shift (BitVec.ofNat 16 os.length) (build ts os names).map).map
    (BitVec.setWidth 32) = ms at hser
  have hmsl : ms.length = os.length := by rw [← hms]; simp [shift, build_map_length]
  have hsmall : ∀ o ∈ os, o.Small := by
    intro o ho
    have : o.size ≤ codeSize os := by
      clear hser hoff hms hmsl hcount wsize hbuf t1 t2
      induction os with
      | nil => cases ho
      | cons x os ih =>
        simp only [codeSize, List.map_cons, List.sum_cons] at *
        rcases List.mem_cons.mp ho with rfl | ho
        · omega
        · have := ih ho; omega
    simp only [SysObject.Small]; omega
  have hload : ∃ map, loadImage ⟨ts, BitVec.ofNat 32 os.length, BitVec.ofNat 32 (codeSize os),
      BitVec.ofNat 32 names.size,
      ms ++ (encObjects os ++ (BitVec.ofNat 32 names.length :: nw))⟩ =
      some ⟨ts, map, os, names⟩ := by
    have r1 := loadList_mid ms [] (encObjects os ++ (BitVec.ofNat 32 names.length :: nw)) (a := 0)
      (n := os.length) rfl hmsl.symm
    have r2 := readObjects_mid os hsmall ms [] (BitVec.ofNat 32 names.length :: nw)
      (a := os.length) (off := 0#16) hmsl.symm rfl (by simpa using hoff)
    have r3 := load_mid (ms ++ encObjects os) nw (BitVec.ofNat 32 names.length)
      (a := os.length + codeSize os) (by simp [hmsl, encObjects_length])
    have r4 := readNames_mid hnw (fun e he => ⟨wclean e he, by have := le_sum_names he; omega⟩) []
      (ms ++ encObjects os ++ [BitVec.ofNat 32 names.length]) []
      (a := os.length + codeSize os + 1) (by simp [hmsl, encObjects_length]; omega)
      (by simpa using wkeys)
    have t5 : ((BitVec.ofNat 32 os.length).setWidth 16).toNat = os.length := by
      simp only [BitVec.toNat_setWidth, t1]; omega
    simp only [List.append_assoc, List.nil_append, List.append_nil, List.cons_append] at r1 r2 r3 r4
    simp only [loadImage, readMap, t1, t2, t5, if_pos hcount, r1, r2, r3, r4, t4, Names.read,
      Option.bind_some, Option.map_some]
    exact ⟨_, rfl⟩
  obtain ⟨map, hload⟩ := hload
  refine ⟨_, _, _, _, hser, fileRead_fileWrite _ ?_, hload, rfl, rfl, rfl⟩
  have := hnw.length
  simp only [List.length_append, List.length_cons, hmsl, encObjects_length, t1, t2, t3, this]
  simp only [Names.size]
  omega

/-- The hypotheses of the partial theorem are met, e.g. by two objects, one with a view and a
reference to the other, and a name. -/
example : WF [⟨0, [9, 8], [1], [], [⟨[3], [0]⟩]⟩, ⟨1, [7], [], [], []⟩] [(0, [104#8, 105#8])] ∧
    ∀ n, n < 2 → codeSize (([⟨0, [9, 8], [1], [], [⟨[3], [0]⟩]⟩, ⟨1, [7], [], [], []⟩] :
      List SysObject).take n) < 65536 := by
  refine ⟨⟨by decide, by decide, by decide⟩, ?_⟩
  intro n hn
  match n, hn with
  | 0, _ => decide
  | 1, _ => decide

/-- The first object occupies 65536 words: the reader's 16-bit offset is back at the start of the
code segment when it comes to the second one. -/
def bigObject : SysObject := ⟨0, List.replicate 65531 0, [], [], []⟩
def smallObject : SysObject := ⟨1, [], [], [], []⟩

/-- C12 is violated by images whose code segment exceeds 65535 words: the second object loads as a
copy of the first. -/
theorem C12_image_round_trip_violated : ¬ C12_full ∧
    ∀ buf : Mem, buf.length = 2 + (65536 + 5) + 1 → ∃ r im' im2,
      serialize buf (build 0 [bigObject, smallObject] []) = some (r, im') ∧
      loadImage r = some im2 ∧ im2.objects = [bigObject, bigObject] := by
  have hbs : bigObject.size = 65536 := by
    simp only [SysObject.size, bigObject, List.length_replicate]; rfl
  have hss : smallObject.size = 5 := by decide
  have hcs : codeSize [bigObject, smallObject] = 65541 := by
    simp [codeSize, hbs, hss]
  have key : ∀ buf : Mem, buf.length = 2 + (65536 + 5) + 1 → ∃ r im' im2,
      serialize buf (build 0 [bigObject, smallObject] []) = some (r, im') ∧
      fileRead (fileWrite r) = some r ∧
      loadImage r = some im2 ∧ im2.objects = [bigObject, bigObject] := by
    intro buf hbuf
    obtain ⟨nw, hnw, hser⟩ := serialize_spec (build 0 [bigObject, smallObject] []) buf
      (by rw [build_objects, build_map_length, build_names, hcs, hbuf]; rfl)
    rw [build_objects, build_map_length, build_ts, build_names] at hser
    rw [build_names] at hnw
    cases hnw
    generalize hms : (shift (BitVec.ofNat 16 [bigObject, smallObject].length)
      (build 0 [bigObject, smallObject] []).map).map (BitVec.setWidth 32) = ms at hser
    have hmsl : ms.length = 2 := by rw [← hms]; simp [shift, build_map_length]
    have r1 := loadList_mid ms [] (encObjects [bigObject, smallObject] ++
      (BitVec.ofNat 32 (List.length (α := W × List Byte) []) :: [])) (a := 0) (n := 2) rfl hmsl.symm
    have hsm : bigObject.Small := by simp [SysObject.Small, hbs]
    have r2 := bigObject.read_mid hsm ms (smallObject.enc ++ [BitVec.ofNat 32 0]) (a := 2) hmsl.symm
    have r3 := load_mid (ms ++ encObjects [bigObject, smallObject]) [] (BitVec.ofNat 32 0)
      (a := 2 + 65541) (by simp only [List.length_append, hmsl, encObjects_length, hcs])
    have e2 : (BitVec.ofNat 16 bigObject.size) = 0#16 := by rw [hbs]; rfl
    have hro : readObjects (ms ++ (encObjects [bigObject, smallObject] ++ [BitVec.ofNat 32 0])) 2 0#16 2
        = some [bigObject, bigObject] := by
      simp only [readObjects, encObjects, List.flatMap_cons, List.flatMap_nil, List.append_nil,
        List.append_assoc]
      rw [show 2 + (0#16).toNat = 2 from rfl, r2, Option.bind_some, e2,
        show 2 + (0#16 + 0#16).toNat = 2 from rfl, r2]
      rfl
    simp only [List.append_assoc, List.nil_append, List.append_nil, List.cons_append,
      List.length_nil, List.length_cons] at r1 r3 hser
    have hl : loadImage ⟨0, BitVec.ofNat 32 (0 + 1 + 1),
        BitVec.ofNat 32 (codeSize [bigObject, smallObject]), BitVec.ofNat 32 (Names.size []),
        ms ++ (encObjects [bigObject, smallObject] ++ [BitVec.ofNat 32 0])⟩ =
        some ⟨0, ms.map (BitVec.setWidth 16), [bigObject, bigObject], []⟩ := by
      simp only [loadImage, readMap]
      rw [show (BitVec.ofNat 32 (0 + 1 + 1)).toNat = 2 from rfl, if_pos (by decide), r1]
      rw [show ((BitVec.ofNat 32 (0 + 1 + 1)).setWidth 16).toNat = 2 from rfl, Option.map_some,
        Option.bind_some, hro, Option.bind_some, hcs,
        show (BitVec.ofNat 32 65541).toNat = 65541 from rfl, Names.read, r3]
      rfl
    refine ⟨_, _, _, hser, fileRead_fileWrite _ ?_, hl, rfl⟩
    simp only [List.length_append, hmsl, encObjects_length, hcs, List.length_cons, List.length_nil]
    rfl
  constructor
  · intro hf
    have wf : WF [bigObject, smallObject] [] := by
      refine ⟨?_, by simp, by simp⟩
      rw [hcs]; decide
    have h := hf 0 [bigObject, smallObject] [] wf
    have hlen : ([bigObject, smallObject].length + codeSize [bigObject, smallObject] +
        Names.size []) = 2 + (65536 + 5) + 1 := by rw [hcs]; rfl
    obtain ⟨r, im', r', im2, h1, h2, h3, _, h5, _⟩ := h (List.replicate (2 + (65536 + 5) + 1) 0)
      (by rw [hlen, List.length_replicate])
    obtain ⟨r0, im0, im20, k1, k2, k3, k4⟩ := key (List.replicate (2 + (65536 + 5) + 1) 0)
      (List.length_replicate ..)
    rw [h1] at k1
    obtain ⟨rfl, rfl⟩ := Prod.mk.inj (Option.some.inj k1)
    rw [h2] at k2
    obtain rfl := Option.some.inj k2
    rw [h3] at k3
    obtain rfl := Option.some.inj k3
    rw [h5] at k4
    have : smallObject = bigObject := (List.cons.inj (List.cons.inj k4).2).1
    have : (1#32) = 0#32 := congrArg SysObject.oid this
    exact absurd this (by decide)
  · intro buf hb
    obtain ⟨r, im', im2, k1, _, k3, k4⟩ := key buf hb
    exact ⟨r, im', im2, k1, k3, k4⟩

/-! ## C59 -/

/-- A class record without NUL characters in its strings. -/
structure Class.WF (c : Class) : Prop where
  name : (0#8) ∉ c.strOpcode
  members : ∀ x ∈ c.members, x.Clean
  count : c.members.length < 2 ^ 32

/-- `read` gives back every class written by `Class::write`. -/
def RoundTrips (read : Mem → Nat → Option Class) : Prop :=
  ∀ (c : Class), c.WF → ∀ (m : Mem) (b : Nat), b + c.size ≤ m.length →
    ∃ m', c.write m b = some m' ∧ (∀ a, a < b ∨ b + c.size ≤ a → m'[a]? = m[a]?) ∧
      read m' b = some c

/-- C59 in full, for the reader used by `Metadata::read`. -/
def C59_full : Prop := RoundTrips Class.read

/-- C59 is violated for every class whose name does not start with "undefined": the string is
appended to the default name, so no buffer whatsoever reads as such a class. -/
theorem C59_class_record_violated : ¬ C59_full ∧
    ∀ m b c, Class.read m b = some c → ∃ s, c.strOpcode = undefinedStr ++ s := by
  have key : ∀ m b c, Class.read m b = some c → ∃ s, c.strOpcode = undefinedStr ++ s := by
    intro m b c h
    simp only [Class.read, Class.readInto, Option.bind_eq_bind, Option.bind_eq_some_iff] at h
    obtain ⟨_, _, s, hs, _, _, _, _, _, _, _, _, h⟩ := h
    simp only [Option.some.injEq] at h
    subst h
    simp only [readStr, Option.map_eq_some_iff] at hs
    obtain ⟨t, _, rfl⟩ := hs
    exact ⟨t, rfl⟩
  refine ⟨fun hf => ?_, key⟩
  obtain ⟨m', _, _, h⟩ := hf ⟨0, [], 0, 0, []⟩ ⟨by simp, by simp, by simp⟩
    (List.replicate 6 0) 0 (by decide)
  obtain ⟨s, hs⟩ := key _ _ _ h
  exact absurd (congrArg List.length hs) (by simp [undefinedStr])

/-- C59, the part that holds (missing: the class name, which the reader initialises to "undefined"):
member records are lossless, and class records are when read into a class with an empty name. -/
theorem C59_class_record_partial : RoundTrips (Class.readInto []) ∧
    ∀ (x : Member), (0#8) ∉ x.cls → (0#8) ∉ x.name → ∀ (m : Mem) (b : Nat),
      b + x.size ≤ m.length → ∃ m', x.write m b = some m' ∧
        (∀ a, a < b ∨ b + x.size ≤ a → m'[a]? = m[a]?) ∧ Member.read m' b = some x := by
  constructor
  · intro c wf m b hb
    obtain ⟨pre, old, post, rfl, rfl, ho⟩ := split3 m b c.size hb
    obtain ⟨ws, hws, hw⟩ := c.write_mid pre old post rfl ho
    have hl := hws.length
    exact ⟨_, hw, fun a ha => frame_of_mid pre old ws post (by omega) a (by omega),
      c.readInto_mid wf.name wf.members wf.count hws pre post rfl⟩
  · intro x h1 h2 m b hb
    obtain ⟨pre, old, post, rfl, rfl, ho⟩ := split3 m b x.size hb
    obtain ⟨ws, hws, hw⟩ := x.write_mid pre old post rfl ho
    have hl := hws.length
    exact ⟨_, hw, fun a ha => frame_of_mid pre old ws post (by omega) a (by omega),
      x.read_mid ⟨h1, h2⟩ hws pre post rfl⟩

example : (Class.mk 5 [102#8] 0 0 [⟨1, 2, [97#8], 3, [98#8, 99#8]⟩]).WF := by
  refine ⟨by decide, ?_, by decide⟩
  intro x hx
  simp only [List.mem_singleton] at hx
  subst hx
  exact ⟨by decide, by decide⟩

/-! ## C60 -/

/-- The object map of the serialised image designates the objects: entry `i` is the index in the
data of a record that reads as object `i`. -/
def Locates (r : RImage) (os : List SysObject) : Prop :=
  ∀ (i : Nat) (o : SysObject), os[i]? = some o → ∃ e : W, r.data[i]? = some e ∧ SysObject.read r.data e.toNat = some o

/-- C60 in full: whenever an image is serialised, also when it was serialised before. -/
def C60_full : Prop :=
  ∀ ts os names, WF os names → ∀ buf buf2 : Mem,
    buf.length = os.length + codeSize os + names.size → buf2.length = buf.length →
    ∃ r im' r2 im2, serialize buf (build ts os names) = some (r, im') ∧ Locates r os ∧
      serialize buf2 im' = some (r2, im2) ∧ Locates r2 os

/-- C60, the part that holds (missing: images of 65536 words or more, and images serialised before):
the first serialisation of a smaller image locates every object. -/
theorem C60_object_map_partial (ts : BitVec 64) (os : List SysObject) (names : Names)
    (wf : WF os names) (hsize : os.length + codeSize os < 65536) (buf : Mem)
    (hbuf : buf.length = os.length + codeSize os + names.size) :
    ∃ r im', serialize buf (build ts os names) = some (r, im') ∧ Locates r os := by
  obtain ⟨nw, hnw, hser⟩ := serialize_spec (build ts os names) buf
    (by rw [build_objects, build_map_length]; exact hbuf)
  refine ⟨_, _, hser, ?_⟩
  rw [build_objects, build_map_length]
  intro i o ho
  have hi : i < os.length := (List.getElem?_eq_some_iff.mp ho).1
  generalize hms : (shift (BitVec.ofNat 16 os.length) (build ts os names).map).map
    (BitVec.setWidth 32) = ms
  have hmsl : ms.length = os.length := by rw [← hms]; simp [shift, build_map_length]
  obtain ⟨a, b, rfl, ha⟩ : ∃ a b, os = a ++ o :: b ∧ a.length = i := by
    refine ⟨os.take i, os.drop (i + 1), ?_, by simp; omega⟩
    have := List.getElem?_eq_some_iff.mp ho
    rw [← this.2, List.getElem_cons_drop, List.take_append_drop]
  have htake : (a ++ o :: b).take i = a := by rw [← ha]; simp
  have hcs : codeSize (a ++ o :: b) = codeSize a + o.size + codeSize b := by
    simp [codeSize]; omega
  refine ⟨(BitVec.ofNat 16 (codeSize a) + BitVec.ofNat 16 (a ++ o :: b).length).setWidth 32, ?_, ?_⟩
  · simp only []
    rw [List.getElem?_append_left (by omega), ← hms]
    simp only [shift, List.getElem?_map, build_map ts _ names i hi, Option.map_some, htake]
  · have hn : ((BitVec.ofNat 16 (codeSize a) + BitVec.ofNat 16 (a ++ o :: b).length).setWidth
        32).toNat = (a ++ o :: b).length + codeSize a := by
      simp only [BitVec.toNat_setWidth, BitVec.toNat_add, BitVec.toNat_ofNat]
      omega
    rw [hn]
    have := o.read_mid (by simp only [SysObject.Small]; omega) (ms ++ encObjects a)
      (encObjects b ++ (BitVec.ofNat 32 (build ts (a ++ o :: b) names).names.length :: nw))
      (a := (a ++ o :: b).length + codeSize a)
      (by rw [List.length_append (as := ms), hmsl, encObjects_length])
    simp only [List.append_assoc] at this
    simp only [encObjects, List.flatMap_append, List.flatMap_cons, List.append_assoc] at this ⊢
    exact this

example : ([SysObject.mk 0 [9] [] [] []].length + codeSize [SysObject.mk 0 [9] [] [] []]) = 7 := by
  decide

/-- C60 is violated: serialising an image shifts its object map, so a second serialisation of the
same image has a map pointing past the objects. -/
theorem C60_object_map_violated : ¬ C60_full ∧
    ∃ r im' r2 im2, serialize (List.replicate 7 0) (build 0 [⟨5, [], [], [], []⟩] []) = some (r, im') ∧
      serialize (List.replicate 7 0) im' = some (r2, im2) ∧
      r.data[0]? = some 1 ∧ r2.data[0]? = some 2 ∧ r2.data.drop 1 = r.data.drop 1 := by
  have hw : ∃ r im' r2 im2,
      serialize (List.replicate 7 0) (build 0 [⟨5, [], [], [], []⟩] []) = some (r, im') ∧
      serialize (List.replicate 7 0) im' = some (r2, im2) ∧
      r.data[0]? = some 1 ∧ r2.data[0]? = some 2 ∧ r2.data.drop 1 = r.data.drop 1 ∧
      SysObject.read r2.data 2 ≠ some ⟨5, [], [], [], []⟩ :=
    ⟨_, _, _, _, rfl, rfl, rfl, rfl, rfl, by decide⟩
  constructor
  · intro hf
    obtain ⟨r, im', r2, im2, h1, h2, _, h4, _, h6⟩ := hw
    obtain ⟨s, jm', s2, jm2, k1, _, k3, k4⟩ := hf 0 [⟨5, [], [], [], []⟩] []
      ⟨by decide, by decide, by simp⟩ (List.replicate 7 0) (List.replicate 7 0) rfl rfl
    rw [h1] at k1
    obtain ⟨rfl, rfl⟩ := Prod.mk.inj (Option.some.inj k1)
    rw [h2] at k3
    obtain ⟨rfl, rfl⟩ := Prod.mk.inj (Option.some.inj k3)
    obtain ⟨e, he, hr⟩ := k4 0 _ rfl
    rw [h4] at he
    obtain rfl := Option.some.inj he
    exact h6 hr
  · obtain ⟨r, im', r2, im2, h1, h2, h3, h4, h5, _⟩ := hw
    exact ⟨r, im', r2, im2, h1, h2, h3, h4, h5⟩

end Verif.Image
