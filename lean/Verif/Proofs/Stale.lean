import Verif.Proofs.Shape
import Verif.Proofs.SlabApi
/-
What is left in the leaf slots: only `insert_leaf` writes keys, removing leaves them in place.
-/
namespace AOB
variable {C : Type}

namespace Slab

/-- All keys in slots that have been used satisfy `P`. -/
def Marked (P : Nat → Prop) (s : Slab C) : Prop :=
  ∀ i < s.header.leafBumpIndex, ∀ l, s.leafNodes[i]? = some l → P l.key

/-- The keys in the slots and the number of used slots are the same. -/
def SameMarks (s s' : Slab C) : Prop :=
  s'.header.leafBumpIndex = s.header.leafBumpIndex ∧ s'.leafNodes.map LeafNode.key = s.leafNodes.map LeafNode.key

theorem SameMarks.refl (s : Slab C) : s.SameMarks s := ⟨rfl, rfl⟩

theorem SameMarks.trans {a b c : Slab C} (h : a.SameMarks b) (g : b.SameMarks c) : a.SameMarks c :=
  ⟨g.1.trans h.1, g.2.trans h.2⟩

theorem SameMarks.marked {s s' : Slab C} (h : s.SameMarks s') {P : Nat → Prop} (hm : s.Marked P) : s'.Marked P := by
  intro i hi l hl
  have := congrArg (fun x => x[i]?) h.2
  simp only [List.getElem?_map, hl, Option.map_some] at this
  obtain ⟨l', hl', e⟩ := Option.map_eq_some_iff.1 this.symm
  rw [← e]
  exact hm i (h.1 ▸ hi) l' hl'

theorem Marked.mono {s : Slab C} {P Q : Nat → Prop} (h : s.Marked P) (hPQ : ∀ k, P k → Q k) : s.Marked Q :=
  fun i hi l hl => hPQ _ (h i hi l hl)

theorem map_set_key {ls : List LeafNode} {i : Nat} {n n' : LeafNode} (hn : ls[i]? = some n) (hk : n'.key = n.key) :
    (ls.set i n').map LeafNode.key = ls.map LeafNode.key := by
  obtain ⟨hi, rfl⟩ := List.getElem?_eq_some_iff.1 hn
  rw [List.map_set, hk]
  apply List.ext_getElem?
  intro j
  rw [List.getElem?_set]
  split <;> rename_i h
  · subst h; simp [hi]
  · rfl

theorem get_set_cases {α : Type} {xs : List α} {i j : Nat} {v x : α} (h : (xs.set i v)[j]? = some x) :
    (x = v ∧ i = j) ∨ (i ≠ j ∧ xs[j]? = some x) := by
  by_cases he : i = j
  · subst he
    left
    have := (List.getElem?_eq_some_iff.1 h)
    obtain ⟨_, rfl⟩ := this
    simp
  · right
    rw [List.getElem?_set_ne he] at h
    exact ⟨he, h⟩

theorem freeLeaf_marks {s s' : Slab C} {k : Nat} (h : s.freeLeaf k = .ok s') : s.SameMarks s' := by
  unfold freeLeaf at h
  obtain ⟨ls, hls, h⟩ := bind_ok h
  obtain ⟨l, hl, h⟩ := bind_ok h
  obtain rfl := Except.ok.inj h
  refine ⟨rfl, ?_⟩
  show ls.map _ = _
  split at hls
  · obtain ⟨n, hn, hls⟩ := bind_ok hls
    obtain ⟨_, rfl⟩ := setIdx_ok_iff.1 hls
    exact map_set_key (idx_ok.1 hn) rfl
  · obtain rfl := Except.ok.inj hls
    rfl

theorem freeInnerNode_marks {s s' : Slab C} {k : Nat} (h : s.freeInnerNode k = .ok s') : s.SameMarks s' := by
  unfold freeInnerNode at h
  obtain ⟨ls, hls, h⟩ := bind_ok h
  obtain ⟨l, hl, h⟩ := bind_ok h
  obtain rfl := Except.ok.inj h
  exact ⟨rfl, rfl⟩

theorem relink_marks {s s' : Slab C} {at_ : Option (Nat × Bool)} {k : Nat} (h : s.relink at_ k = .ok s') :
    s.SameMarks s' := by
  unfold relink at h
  split at h
  · obtain ⟨n, hn, h⟩ := bind_ok h
    obtain ⟨ls, hls, h⟩ := bind_ok h
    obtain rfl := Except.ok.inj h
    exact ⟨rfl, rfl⟩
  · obtain rfl := Except.ok.inj h
    exact ⟨rfl, rfl⟩

theorem allocateInnerNode_marks {s s' : Slab C} {k : Nat} (h : s.allocateInnerNode = .ok (k, s')) : s.SameMarks s' := by
  unfold allocateInnerNode at h
  split at h
  · split at h
    · cases h
    · obtain ⟨b, hb, h⟩ := bind_ok h
      obtain ⟨rfl, rfl⟩ := Prod.mk.inj (Except.ok.inj h)
      exact ⟨rfl, rfl⟩
  · obtain ⟨f, hi, h⟩ := bind_ok h
    obtain ⟨l, hl, h⟩ := bind_ok h
    obtain ⟨rfl, rfl⟩ := Prod.mk.inj (Except.ok.inj h)
    exact ⟨rfl, rfl⟩

/-- A slot is marked by writing a key into the slot just allocated. -/
theorem allocate_write {s s1 : Slab C} {k : Nat} (ha : s.allocateLeaf = .ok (k, s1)) {P : Nat → Prop}
    (hm : s.Marked P) {l : LeafNode} (hl : P l.key) :
    Marked P { s1 with leafNodes := s1.leafNodes.set k l } := by
  unfold allocateLeaf at ha
  split at ha
  · split at ha
    · cases ha
    · obtain ⟨b, hb, ha⟩ := bind_ok ha
      obtain ⟨_, rfl⟩ := addU32_ok_iff.1 hb
      obtain ⟨rfl, rfl⟩ := Prod.mk.inj (Except.ok.inj ha)
      intro i hi l' hl'
      dsimp only at hi hl'
      rcases get_set_cases hl' with ⟨rfl, -⟩ | ⟨he, hl'⟩
      · exact hl
      · exact hm i (by omega) l' hl'
  · obtain ⟨f, hi, ha⟩ := bind_ok ha
    obtain ⟨n, hn, ha⟩ := bind_ok ha
    obtain ⟨rfl, rfl⟩ := Prod.mk.inj (Except.ok.inj ha)
    intro i hi l' hl'
    dsimp only at hi hl'
    rcases get_set_cases hl' with ⟨rfl, -⟩ | ⟨_, hl'⟩
    · exact hl
    · exact hm i hi l' hl'

theorem insertLeaf_marked {s s' : Slab C} {l : LeafNode} {r : Nat × Option LeafNode}
    (h : s.insertLeaf l = .ok (r, s')) {P : Nat → Prop} (hm : s.Marked P) (hl : P l.key) : s'.Marked P := by
  unfold insertLeaf at h
  split at h
  · obtain ⟨⟨k, s1⟩, ha, h⟩ := bind_ok h
    obtain ⟨ls, hls, h⟩ := bind_ok h
    obtain ⟨_, rfl⟩ := setIdx_ok_iff.1 hls
    obtain ⟨c, hc, h⟩ := bind_ok h
    obtain ⟨_, rfl⟩ := Prod.mk.inj (Except.ok.inj h)
    exact allocate_write (mapIoSlabFull_ok ha) hm hl
  · obtain ⟨stop, hstop, h⟩ := bind_ok h
    cases stop with
    | clobber root =>
      obtain ⟨o, ho, h⟩ := bind_ok h
      obtain ⟨ls, hls, h⟩ := bind_ok h
      obtain ⟨_, rfl⟩ := setIdx_ok_iff.1 hls
      obtain ⟨_, rfl⟩ := Prod.mk.inj (Except.ok.inj h)
      intro i hi l' hl'
      dsimp only at hi hl'
      rcases get_set_cases hl' with ⟨rfl, -⟩ | ⟨_, hl'⟩
      · exact hl
      · exact hm i hi l' hl'
    | split root parent shared =>
      obtain ⟨mask, hmk, h⟩ := bind_ok h
      obtain ⟨⟨k, s1⟩, ha, h⟩ := bind_ok h
      obtain ⟨ls, hls, h⟩ := bind_ok h
      obtain ⟨_, rfl⟩ := setIdx_ok_iff.1 hls
      have h2 := allocate_write (mapIoSlabFull_ok ha) hm hl
      obtain ⟨⟨ih, s3⟩, ha3, h⟩ := bind_ok h
      have h3 := (allocateInnerNode_marks (unwrapIo_ok ha3)).marked h2
      obtain ⟨n, hn, h⟩ := bind_ok h
      obtain ⟨ls4, hls4, h⟩ := bind_ok h
      obtain ⟨s5, hs5, h⟩ := bind_ok h
      have h5 := (relink_marks hs5).marked (P := P) (fun i hi l hl => h3 i hi l hl)
      obtain ⟨c, hc, h⟩ := bind_ok h
      obtain ⟨_, rfl⟩ := Prod.mk.inj (Except.ok.inj h)
      exact h5

theorem removeByKey_marks {s s' : Slab C} {x : Nat} {r : Option (LeafNode × C)}
    (h : s.removeByKey x = .ok (r, s')) : s.SameMarks s' := by
  unfold removeByKey at h
  split at h
  · obtain ⟨rfl, rfl⟩ := Prod.mk.inj (Except.ok.inj h)
    exact SameMarks.refl _
  · obtain ⟨⟨o, g⟩, hst, h⟩ := bind_ok h
    cases o with
    | some lc =>
      obtain ⟨s1, hs1, h⟩ := bind_ok h
      obtain ⟨c, hc, h⟩ := bind_ok h
      obtain ⟨rfl, rfl⟩ := Prod.mk.inj (Except.ok.inj h)
      have := freeLeaf_marks hs1
      exact ⟨this.1, this.2⟩
    | none =>
      obtain ⟨stop, hstop, h⟩ := bind_ok h
      cases stop with
      | none =>
        obtain ⟨rfl, rfl⟩ := Prod.mk.inj (Except.ok.inj h)
        exact SameMarks.refl _
      | some r =>
        obtain ⟨pn, hpn, h⟩ := bind_ok h
        obtain ⟨s1, hs1, h⟩ := bind_ok h
        obtain ⟨c, hc, h⟩ := bind_ok h
        obtain ⟨rm, hrm, h⟩ := bind_ok h
        obtain ⟨s3, hs3, h⟩ := bind_ok h
        obtain ⟨s4, hs4, h⟩ := bind_ok h
        obtain ⟨ci, hci, h⟩ := bind_ok h
        obtain ⟨rfl, rfl⟩ := Prod.mk.inj (Except.ok.inj h)
        have h1 := relink_marks hs1
        have h3 := freeLeaf_marks hs3
        exact (SameMarks.trans ⟨h3.1.trans h1.1, h3.2.trans h1.2⟩ (freeInnerNode_marks hs4))

theorem setBaseQuantity_marks {s s' : Slab C} {k q : Nat} (h : s.setBaseQuantity k q = .ok s') : s.SameMarks s' := by
  unfold setBaseQuantity at h
  obtain ⟨n, hn, h⟩ := bind_ok h
  obtain ⟨ls, hls, h⟩ := bind_ok h
  obtain ⟨_, rfl⟩ := setIdx_ok_iff.1 hls
  obtain rfl := Except.ok.inj h
  exact ⟨rfl, map_set_key (idx_ok.1 hn) rfl⟩

theorem setCallbackInfo_marks {s s' : Slab C} {k : Nat} {c : C} (h : s.setCallbackInfo k c = .ok s') :
    s.SameMarks s' := by
  unfold setCallbackInfo at h
  obtain ⟨ls, hls, h⟩ := bind_ok h
  obtain rfl := Except.ok.inj h
  exact ⟨rfl, rfl⟩

end Slab

theorem SRep.marked {s : Slab C} {os : List (Order C)} (hs : SRep s os) {P : Nat → Prop} (hm : s.Marked P) :
    (∀ o ∈ os, P o.id) ∧ (os ≠ [] → ∀ k, s.leafNodes[0]?.map LeafNode.key = some k → P k) := by
  obtain ⟨es, ⟨ot, hr, rfl⟩, rfl⟩ := hs
  obtain ⟨free, -, -, hp, -⟩ := hr.leafAlloc
  have hlt : ∀ e ∈ oents ot, e.slot < s.header.leafBumpIndex := fun e he =>
    List.mem_range.1 (hp.mem_iff.1 (List.mem_append_left _ (List.mem_map_of_mem he)))
  constructor
  · rintro o ho
    obtain ⟨e, he, rfl⟩ := List.mem_map.1 ho
    cases ot with
    | none => cases he
    | some t => exact hm e.slot (hlt e he) _ (hr.mem.ents_mem e he).2.1
  · intro hne k hk
    obtain ⟨e, he⟩ := List.exists_mem_of_ne_nil _ (fun h => hne (by rw [h]; rfl) : oents ot ≠ [])
    obtain ⟨l, hl, rfl⟩ := Option.map_eq_some_iff.1 hk
    exact hm 0 (Nat.lt_of_le_of_lt (Nat.zero_le _) (hlt e he)) l hl

/-- Both sides hold only keys that satisfy `P`. -/
def OrderBook.Marked (P : Nat → Prop) (b : OrderBook C) : Prop := ∀ sd, (b.getTree sd).Marked P

theorem OrderBook.Marked.set {P : Nat → Prop} {b : OrderBook C} (h : b.Marked P) {sd : Side} {s : Slab C}
    (hs : s.Marked P) : (b.setTree sd s).Marked P := by
  intro sd'
  cases sd <;> cases sd' <;> first | exact hs | exact h .bid | exact h .ask

variable [CallbackInfo C]

theorem matchLoop_marked (p : NewOrderParams C) (mb : Nat) {P : Nat → Prop} (n : Nat) : ∀ {st st' : MatchState C},
    st.book.Marked P → matchLoop p mb n st = .ok st' → st'.book.Marked P := by
  induction n with
  | zero =>
    intro st st' hb h
    obtain rfl := Except.ok.inj h
    exact hb
  | succ n ih =>
    intro st st' hb h
    have hopp := hb p.side.opposite
    unfold matchLoop at h
    obtain ⟨bbo, hbbo, h⟩ := bind_ok h
    cases bbo with
    | none => obtain rfl := Except.ok.inj h; exact hb
    | some hd =>
      obtain ⟨bo, hbo, h⟩ := bind_ok h
      dsimp only at h
      split at h
      · obtain rfl := Except.ok.inj h; exact hb
      split at h
      · obtain rfl := Except.ok.inj h; exact hb
      split at h
      · cases h
      split at h
      · obtain rfl := Except.ok.inj h; exact hb
      obtain ⟨wst, hwst, h⟩ := bind_ok h
      split at h
      · split at h
        · cases h
        obtain ⟨c, hc, h⟩ := bind_ok h
        obtain ⟨q1, hq1, h⟩ := bind_ok h
        obtain ⟨⟨r, s1⟩, hr, h⟩ := bind_ok h
        obtain ⟨x, hx, h⟩ := bind_ok h
        exact ih (st := { st with book := _, queue := _, crossed := _ })
          (hb.set ((Slab.removeByKey_marks hr).marked hopp)) h
      · obtain ⟨c, hc, h⟩ := bind_ok h
        obtain ⟨q1, hq1, h⟩ := bind_ok h
        obtain ⟨left, hleft, h⟩ := bind_ok h
        obtain ⟨s1, hs1, h⟩ := bind_ok h
        have hks := (Slab.setBaseQuantity_marks hs1).marked hopp
        obtain ⟨br, hbr, h⟩ := bind_ok h
        obtain ⟨qr, hqr, h⟩ := bind_ok h
        split at h
        · obtain ⟨⟨r, s2⟩, hr, h⟩ := bind_ok h
          obtain ⟨⟨x, c2⟩, hx, h⟩ := bind_ok h
          obtain ⟨q2, hq2, h⟩ := bind_ok h
          exact ih (st := MatchState.mk _ _ _ _ _) (hb.set ((Slab.removeByKey_marks hr).marked hks)) h
        · exact ih (st := MatchState.mk _ _ _ _ _) (hb.set hks) h

omit [CallbackInfo C] in
theorem postLeaf_marked {sd : Side} {lp : Nat} {s s' : Slab C} {q q' : EventQueue C} {l : LeafNode} {k : Nat}
    {P : Nat → Prop} (hs : s.Marked P) (hl : P l.key) (h : postLeaf sd lp s q l = .ok (.posted k s' q')) :
    s'.Marked P := by
  unfold postLeaf at h
  split at h
  · obtain ⟨cand, _, h⟩ := bind_ok h
    obtain ⟨cd, _, h⟩ := bind_ok h
    obtain ⟨cl, hcl, h⟩ := bind_ok h
    dsimp only at h
    split at h
    · obtain ⟨⟨r, s1⟩, hr, h⟩ := bind_ok h
      obtain ⟨⟨o, c⟩, ho, h⟩ := bind_ok h
      obtain ⟨q1, hq1, h⟩ := bind_ok h
      obtain ⟨⟨h2, s2⟩, hs2, h⟩ := bind_ok h
      obtain ⟨o2, hs2⟩ := unwrapInsert_ok hs2
      injection Except.ok.inj h with e1 e2 e3
      subst e2
      exact Slab.insertLeaf_marked hs2 ((Slab.removeByKey_marks hr).marked hs) hl
    · cases h
  · obtain ⟨⟨h2, s2⟩, hs2, h⟩ := bind_ok h
    obtain ⟨o2, hs2⟩ := unwrapInsert_ok hs2
    injection Except.ok.inj h with e1 e2 e3
    subst e2
    exact Slab.insertLeaf_marked hs2 hs hl

/-- A new order leaves no other key in the slots than the one it reports. -/
theorem newOrder_marked {b b' : OrderBook C} {q q' : EventQueue C} {p : NewOrderParams C} {mb : Nat} {sum : OrderSummary}
    {P : Nat → Prop} (hb : b.Marked P) (h : b.newOrder p q mb = .ok (sum, b', q'))
    (hP : ∀ id, sum.postedOrderId = some id → P id) : b'.Marked P := by
  unfold OrderBook.newOrder at h
  obtain ⟨st, hst, h⟩ := bind_ok h
  have k1 := matchLoop_marked p mb _ (st := MatchState.mk _ _ _ _ _) hb hst
  dsimp only at h
  split at h
  · obtain ⟨s, _, h⟩ := bind_ok h
    obtain ⟨_, e⟩ := Prod.mk.inj (Except.ok.inj h)
    obtain ⟨rfl, rfl⟩ := Prod.mk.inj e
    exact k1
  · obtain ⟨⟨id, q1⟩, hid, h⟩ := bind_ok h
    obtain ⟨r, hr, h⟩ := bind_ok h
    cases r with
    | refused =>
      obtain ⟨s, _, h⟩ := bind_ok h
      obtain ⟨_, e⟩ := Prod.mk.inj (Except.ok.inj h)
      obtain ⟨rfl, rfl⟩ := Prod.mk.inj e
      exact k1
    | posted hd s1 q2 =>
      obtain ⟨s2, hs2, h⟩ := bind_ok h
      obtain ⟨x1, _, h⟩ := bind_ok h
      split at h
      · cases h
      · obtain ⟨x2, _, h⟩ := bind_ok h
        obtain ⟨x3, _, h⟩ := bind_ok h
        obtain ⟨x4, _, h⟩ := bind_ok h
        obtain ⟨e0, e⟩ := Prod.mk.inj (Except.ok.inj h)
        obtain ⟨rfl, rfl⟩ := Prod.mk.inj e
        subst e0
        exact k1.set ((Slab.setCallbackInfo_marks hs2).marked (postLeaf_marked (k1 _) (hP id rfl) hr))

omit [CallbackInfo C] in
theorem cancelIn_marked {b b' : OrderBook C} {id : Nat} {sum : OrderSummary} {P : Nat → Prop} (hb : b.Marked P)
    (h : Market.cancelIn b id = .ok (sum, b')) : b'.Marked P := by
  unfold Market.cancelIn at h
  obtain ⟨⟨r, s⟩, hr, h⟩ := bind_ok h
  cases r with
  | none => cases h
  | some x =>
    obtain ⟨l, c⟩ := x
    dsimp only at h
    split at h
    · cases h
    · obtain ⟨_, rfl⟩ := Prod.mk.inj (Except.ok.inj h)
      exact hb.set ((Slab.removeByKey_marks hr).marked (hb _))

omit [CallbackInfo C] in
theorem massCancelLoop_marked {ids : List Nat} {P : Nat → Prop} : ∀ {b b' : OrderBook C} {x y x' y' : Nat}, b.Marked P →
    Market.massCancelLoop ids x y b = .ok (x', y', b') → b'.Marked P := by
  induction ids with
  | nil =>
    intro b b' x y x' y' hb h
    obtain ⟨_, e⟩ := Prod.mk.inj (Except.ok.inj h)
    obtain ⟨_, rfl⟩ := Prod.mk.inj e
    exact hb
  | cons id ids ih =>
    intro b b' x y x' y' hb h
    unfold Market.massCancelLoop at h
    obtain ⟨⟨r, s⟩, hr, h⟩ := bind_ok h
    cases r with
    | none => cases h
    | some z =>
      obtain ⟨l, c⟩ := z
      obtain ⟨_, _, h⟩ := bind_ok h
      obtain ⟨_, _, h⟩ := bind_ok h
      obtain ⟨_, _, h⟩ := bind_ok h
      exact ih (hb.set ((Slab.removeByKey_marks hr).marked (hb _))) h

end AOB
