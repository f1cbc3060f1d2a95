import Verif.Spec.Client
import Verif.Proofs.BufferLemmas
import Verif.Proofs.SlabApi
import Verif.Proofs.QueueInv
/-
The client reads the accounts as the program does.
-/
namespace AOB

/-! ### Pieces -/

theorem pieces_get {n : Nat} : ∀ {k i : Nat} {b : Bytes}, i < k →
    (pieces n k b)[i]? = some ((b.drop (i * n)).take n) := by
  intro k
  induction k with
  | zero => intro i b h; omega
  | succ k ih =>
    intro i b h
    cases i with
    | zero => simp [pieces]
    | succ i =>
      rw [pieces, List.getElem?_cons_succ, ih (by omega), List.drop_drop]
      congr 3; rw [Nat.add_mul]; omega

theorem castSlice_get {α : Type} {n : Nat} {dec : Bytes → α} {b : Bytes} {xs : List α}
    (h : castSlice n dec b = .ok xs) {i : Nat} {x : α} (hx : xs[i]? = some x) :
    x = dec ((b.drop (i * n)).take n) ∧ (i + 1) * n ≤ b.length := by
  obtain ⟨h1, h2⟩ := castSlice_inv h
  subst h2
  have hi := lt_of_getElem? hx
  rw [List.length_map, pieces_length] at hi
  rw [List.getElem?_map, pieces_get hi] at hx
  refine ⟨(Option.some.inj hx).symm, ?_⟩
  exact Nat.le_trans (Nat.mul_le_mul_right n hi) (Nat.div_mul_le_self _ _)

theorem field_seg {b : Bytes} {i n off m : Nat} (h : off + m ≤ n) : field ((b.drop i).take n) off m = field b (i + off) m := by
  unfold field
  rw [List.drop_take, List.drop_drop, List.take_take, Nat.min_eq_left (by omega)]

namespace Js

theorem readUint_ok {b : Bytes} {off n : Nat} (h : off + n ≤ b.length) : readUint b off n = .ok (field b off n) := if_pos h

theorem readArray_ok {b : Bytes} {off n : Nat} (h : off + n ≤ b.length) :
    readArray b off n = .ok (slice b off (off + n)) := if_pos h

theorem slice_eq (b : Bytes) (i j : Nat) : slice b i j = (b.drop i).take (j - i) := rfl

theorem slice_length {b : Bytes} {i j : Nat} (h : j ≤ b.length) : (slice b i j).length = j - i := by
  rw [slice_eq, List.length_take, List.length_drop]; omega

/-! ### Slabs -/

/-- The client's view of a slab has the contents of the program's. -/
structure Same {C : Type} [Pod C] (js : Slab) (s : AOB.Slab C) : Prop where
  header : js.header = s.header
  leaf : ∀ {h n}, isInnerHandle h = false → s.leafNodes[h]? = some n → js.getNode h = .ok (.leaf n)
  inner : ∀ {h n}, isInnerHandle h = true → s.innerNodes[notU32 h]? = some n → js.getNode h = .ok (.inner n)
  info : ∀ {h c}, s.callbackInfos[h]? = some c → js.getCallBackInfo h = Pod.toBytes c
  fuel : s.leafNodes.length + s.innerNodes.length < js.fuel
  room : js.orderCapacity + 1 = s.leafNodes.length

theorem readLeaf_eq {b : Bytes} (h : b.length = 24) : readLeaf b = .ok (LeafNode.ofBytes b) := by
  unfold readLeaf
  rw [bind_of_ok (readUint_ok (by omega)), bind_of_ok (readUint_ok (by omega))]
  rfl

theorem readInner_eq {b : Bytes} (h : b.length = 32) : readInner b = .ok (InnerNode.ofBytes b) := by
  unfold readInner
  rw [bind_of_ok (readUint_ok (by omega)), bind_of_ok (readUint_ok (by omega)), bind_of_ok (readUint_ok (by omega)),
    bind_of_ok (readUint_ok (by omega))]
  rfl

theorem readHeader_eq {b : Bytes} (h : 40 ≤ b.length) (ht : field b 0 8 < 2 ^ 53) :
    readHeader b = .ok (SlabHeader.ofBytes ((b.drop 8).take 32)) := by
  unfold readHeader
  rw [bind_of_ok (readUint_ok (by omega)), bind_of_ok (show toNumber (field b 0 8) = .ok _ from if_pos ht)]
  rw [bind_of_ok (readUint_ok (by omega)), bind_of_ok (readUint_ok (by omega)), bind_of_ok (readUint_ok (by omega)),
    bind_of_ok (readUint_ok (by omega)), bind_of_ok (readUint_ok (by omega)), bind_of_ok (readUint_ok (by omega)),
    bind_of_ok (readUint_ok (by omega)), bind_of_ok (readUint_ok (by omega))]
  unfold SlabHeader.ofBytes
  rw [field_seg (by omega), field_seg (by omega), field_seg (by omega), field_seg (by omega), field_seg (by omega),
    field_seg (by omega), field_seg (by omega), field_seg (by omega)]

theorem deserialize_same {C : Type} [Pod C] {buf : Bytes} {s : AOB.Slab C} (h : SlabParts C buf s)
    (hex : slabSlack C buf.length = 0) (ht : field buf 0 8 < 2 ^ 53) :
    ∃ js, Slab.deserialize buf (Pod.size C) = .ok js ∧ Same js s := by
  have hlong := h.long
  have hlen := slab_len_eq (C := C) hlong
  obtain ⟨l1, l2, l3, l4⟩ := h.lengths
  have hp : 0 < Pod.size C := Pod.size_pos
  unfold Slab.deserialize
  rw [bind_of_ok (readHeader_eq (by omega) ht)]
  dsimp only
  rw [if_neg (by omega)]
  have hnum : buf.length - 40 - (24 + Pod.size C) = slabCap C buf.length * (24 + Pod.size C + 32) := by
    have h1 := Nat.div_add_mod (buf.length - 64 - Pod.size C) (56 + Pod.size C)
    unfold slabSlack at hex
    rw [hex, Nat.add_zero] at h1
    rw [show buf.length - 40 - (24 + Pod.size C) = buf.length - 64 - Pod.size C by omega, ← h1,
      show 24 + Pod.size C + 32 = 56 + Pod.size C by omega, Nat.mul_comm]
    rfl
  have hden : 0 < 24 + Pod.size C + 32 := by omega
  have e1 : 24 * (buf.length - 40 - (24 + Pod.size C)) / (24 + Pod.size C + 32) = 24 * slabCap C buf.length := by
    rw [hnum, ← Nat.mul_assoc, Nat.mul_div_cancel _ hden]
  have e2 : (24 + 32) * (buf.length - 40 - (24 + Pod.size C)) / (24 + Pod.size C + 32) =
      56 * slabCap C buf.length := by
    rw [hnum, ← Nat.mul_assoc, Nat.mul_div_cancel _ hden]
  have e3 : (buf.length - 40 - (24 + Pod.size C)) / (24 + Pod.size C + 32) = slabCap C buf.length := by
    rw [hnum, Nat.mul_div_cancel _ hden]
  rw [e1, e2, e3]
  refine ⟨_, rfl, h.header.symm, ?_, ?_, ?_, ?_, ?_⟩
  · intro hd n hi hn
    obtain ⟨g1, g2⟩ := castSlice_get h.leaves hn
    generalize hq : slabCap C buf.length = q at *
    unfold Slab.getNode
    rw [hi]
    dsimp only [Bool.false_eq_true, if_false]
    have e : slice buf 40 (40 + 24 + 24 * q) = (buf.drop 40).take ((q + 1) * 24) := by
      rw [slice_eq]; congr 1; omega
    rw [List.length_take, List.length_drop] at g2
    rw [e, if_neg (by simp), readLeaf_eq, g1, slice_eq]
    · dsimp only [ok_bind]
      rw [show (hd + 1) * 24 - hd * 24 = 24 by omega]
    · rw [slice_length]
      · omega
      · rw [List.length_take, List.length_drop]; omega
  · intro hd n hi hn
    obtain ⟨g1, g2⟩ := castSlice_get h.inners hn
    generalize hq : slabCap C buf.length = q at *
    unfold Slab.getNode
    rw [hi]
    dsimp only
    have e : slice buf (40 + 24 + 24 * q) (40 + 24 + 56 * q) = (buf.drop (40 + (q + 1) * 24)).take (q * 32) := by
      rw [slice_eq]; congr 1
      · omega
      · congr 1; omega
    rw [List.length_take, List.length_drop] at g2
    generalize notU32 hd = i at *
    rw [e, if_pos rfl, readInner_eq, g1, slice_eq]
    · dsimp only [ok_bind]
      rw [show (i + 1) * 32 - i * 32 = 32 by omega]
    · rw [slice_length]
      · omega
      · rw [List.length_take, List.length_drop]; omega
  · intro hd c hc
    obtain ⟨g1, g2⟩ := castSlice_get h.infos hc
    generalize hq : slabCap C buf.length = q at *
    unfold Slab.getCallBackInfo
    dsimp only
    rw [show 40 + 24 + 56 * q = 40 + (q + 1) * 24 + q * 32 by omega, slice_eq, g1]
    rw [show (hd + 1) * Pod.size C - hd * Pod.size C = Pod.size C by rw [Nat.add_mul]; omega]
    rw [Pod.toBytes_ofBytes]
    rw [List.length_take, List.length_drop]
    rw [Nat.add_mul] at g2
    omega
  · unfold Slab.fuel
    dsimp only
    rw [slice_length (by omega), slice_length (by omega)]
    omega
  · dsimp only; omega

/-! ### Walking -/

/-- A loop over a list that may break off. -/
def foldUntil {σ α : Type} (visit : σ → α → Option σ) : σ → List α → σ
  | st, [] => st
  | st, x :: xs => match visit st x with
    | none => st
    | some st => foldUntil visit st xs

variable {C : Type} [Pod C]

theorem walk_spec {σ : Type} {js : Slab} {s : AOB.Slab C} (hs : Same js s) (desc : Bool)
    (visit : σ → LeafRef → Option σ) : ∀ (fuel : Nat) (ts : List (Tree C)) (st : σ),
    (∀ u ∈ ts, u.Mem s.leafNodes s.innerNodes s.callbackInfos) →
    (ts.map (fun u => u.ents.length + u.inners.length)).sum ≤ fuel →
    js.walk desc visit fuel (ts.map Tree.handle) st =
      .ok (foldUntil visit st ((ts.flatMap (Tree.ordered (!desc))).map (fun e => refOf e.order))) := by
  intro fuel
  induction fuel with
  | zero =>
    intro ts st hm hf
    cases ts with
    | nil => rfl
    | cons u ts =>
      exfalso
      simp at hf
      exact u.ents_ne_nil hf.1.1
  | succ fuel ih =>
    intro ts st hm hf
    cases ts with
    | nil => rfl
    | cons t ts =>
      have hmt := hm t (by simp)
      have hmts : ∀ u ∈ ts, u.Mem s.leafNodes s.innerNodes s.callbackInfos :=
        fun u hu => hm u (List.mem_cons_of_mem _ hu)
      simp only [List.map_cons, List.sum_cons] at hf
      simp only [List.map_cons]
      cases t with
      | leaf e =>
        unfold Slab.walk
        rw [bind_of_ok (hs.leaf hmt.handle_leaf hmt.2.1)]
        dsimp only
        rw [show (Tree.leaf e).handle = e.slot from rfl, hs.info hmt.2.2]
        have e1 : (List.flatMap (Tree.ordered (!desc)) (Tree.leaf e :: ts)).map (fun e => refOf e.order) =
            refOf e.order :: (ts.flatMap (Tree.ordered (!desc))).map (fun e => refOf e.order) := by
          cases desc <;> simp [Tree.ordered, Tree.ents]
        rw [e1, foldUntil]
        show (match visit st (refOf e.order) with | none => _ | some st => _) = _
        cases visit st (refOf e.order) with
        | none => rfl
        | some st' =>
          exact ih ts st' hmts (by simp [Tree.ents, Tree.inners] at hf; omega)
      | node i k p l r =>
        obtain ⟨h1, h2, h3, h4⟩ := hmt
        unfold Slab.walk
        rw [show (Tree.node i k p l r).handle = notU32 i from rfl,
          bind_of_ok (hs.inner (isInner_not h1) (by rw [notU32_notU32 (by omega)]; exact h2))]
        dsimp only
        simp only [Tree.ents, Tree.inners, List.length_append, List.length_cons] at hf
        cases desc
        · have := ih (l :: r :: ts) st (by
            intro u hu
            simp only [List.mem_cons] at hu
            rcases hu with rfl | rfl | hu
            · exact h3
            · exact h4
            · exact hmts u hu) (by simp only [List.map_cons, List.sum_cons]; omega)
          simp only [List.map_cons] at this
          refine Eq.trans this ?_
          simp [Tree.ordered, Tree.ents]
        · have := ih (r :: l :: ts) st (by
            intro u hu
            simp only [List.mem_cons] at hu
            rcases hu with rfl | rfl | hu
            · exact h4
            · exact h3
            · exact hmts u hu) (by simp only [List.map_cons, List.sum_cons]; omega)
          simp only [List.map_cons] at this
          refine Eq.trans this ?_
          simp [Tree.ordered, Tree.ents]

theorem walkAll_spec {σ : Type} {js : Slab} {s : AOB.Slab C} (hs : Same js s) {os : List (Order C)} (hr : SRep s os)
    (desc : Bool) (visit : σ → LeafRef → Option σ) (st : σ) :
    js.walkAll desc visit st = .ok (foldUntil visit st ((if desc then os.reverse else os).map refOf)) := by
  obtain ⟨es, ⟨ot, hr, rfl⟩, rfl⟩ := hr
  unfold Slab.walkAll
  rw [hs.header]
  cases ot with
  | none =>
    rw [if_pos (hr.count_zero.2 rfl)]
    cases desc <;> rfl
  | some t =>
    have h0 : s.header.leafCount ≠ 0 := by rw [Ne, hr.count_zero]; simp
    have h1 := hr.inners_le
    have h3 := hr.ents_le
    have hfuel := hs.fuel
    have := walk_spec hs desc visit js.fuel [t] st (by
        intro u hu
        simp only [List.mem_singleton] at hu
        subst hu
        exact hr.mem)
      (by simp only [oents] at h3; simp; omega)
    rw [if_neg h0, hr.root_eq]
    simp only [List.map_cons, List.map_nil] at this
    rw [this]
    cases desc <;> simp [Tree.ordered, oents, Function.comp_def]

theorem foldUntil_items (acc l : List LeafRef) : foldUntil (fun l x => some (l ++ [x])) acc l = acc ++ l := by
  induction l generalizing acc with
  | nil => simp [foldUntil]
  | cons x xs ih => rw [foldUntil]; dsimp only; rw [ih]; simp

theorem items_spec {js : Slab} {s : AOB.Slab C} (hs : Same js s) {os : List (Order C)} (hr : SRep s os) (desc : Bool) :
    js.items desc = .ok ((if desc then os.reverse else os).map refOf) := by
  unfold Slab.items
  rw [walkAll_spec hs hr, foldUntil_items, List.nil_append]

theorem foldUntil_minMax (n : Nat) (acc l : List LeafRef) (h : acc.length ≤ n) :
    foldUntil (fun l x => if l.length = n then none else some (l ++ [x])) acc l = (acc ++ l).take n := by
  induction l generalizing acc with
  | nil => simp [foldUntil, List.take_of_length_le h]
  | cons x xs ih =>
    rw [foldUntil]
    by_cases hn : acc.length = n
    · rw [if_pos hn]
      subst hn
      simp
    · rw [if_neg hn]
      dsimp only
      rw [ih _ (by simp; omega)]
      simp

theorem getMinMaxNodes_spec {js : Slab} {s : AOB.Slab C} (hs : Same js s) {os : List (Order C)} (hr : SRep s os)
    (n : Nat) (max : Bool) :
    js.getMinMaxNodes n max = .ok (((if max then os.reverse else os).map refOf).take n) := by
  unfold Slab.getMinMaxNodes
  rw [walkAll_spec hs hr, foldUntil_minMax _ _ _ (by simp), List.nil_append]

/-! ### Price levels -/

theorem nodup_eraseDups {α : Type} [BEq α] [LawfulBEq α] : ∀ (n : Nat) (l : List α), l.length ≤ n → l.eraseDups.Nodup := by
  intro n
  induction n with
  | zero => intro l h; cases l with
    | nil => simp
    | cons a l => simp at h
  | succ n ih =>
    intro l h
    cases l with
    | nil => simp
    | cons a l =>
      rw [List.eraseDups_cons, List.nodup_cons]
      refine ⟨?_, ih _ ?_⟩
      · rw [List.mem_eraseDups]; simp
      · have := List.length_filter_le (fun b => !b == a) l
        simp at h; omega

theorem eraseDups_sublist : ∀ (n : Nat) (l : List Nat), l.length ≤ n → l.eraseDups.Sublist l := by
  intro n
  induction n with
  | zero => intro l h; cases l with
    | nil => simp
    | cons a l => simp at h
  | succ n ih =>
    intro l h
    cases l with
    | nil => simp
    | cons a l =>
      rw [List.eraseDups_cons]
      have h1 : (l.filter (fun b => !b == a)).length ≤ n :=
        Nat.le_trans (List.length_filter_le _ _) (by simpa using h)
      exact ((ih _ h1).trans List.filter_sublist).cons_cons a

theorem foldUntil_map {σ α β : Type} (f : α → β) (visit : σ → β → Option σ) (st : σ) (l : List α) :
    foldUntil visit st (l.map f) = foldUntil (fun st x => visit st (f x)) st l := by
  induction l generalizing st with
  | nil => rfl
  | cons x xs ih =>
    rw [List.map_cons, foldUntil, foldUntil]
    cases visit st (f x) with
    | none => rfl
    | some st' => exact ih st'

omit [Pod C] in
theorem eraseDups_snoc (l : List Nat) (p : Nat) :
    (l ++ [p]).eraseDups = if p ∈ l then l.eraseDups else l.eraseDups ++ [p] := by
  rw [List.eraseDups_append]
  by_cases h : p ∈ l <;> simp [List.removeAll, h, List.eraseDups_cons]

/-- Total quantity at a price. -/
def sizeAt (os : List (Order C)) (p : Nat) : Nat := ((os.filter (fun o => o.price == p)).map Order.qty).sum

omit [Pod C] in
theorem sizeAt_append (a b : List (Order C)) (p : Nat) : sizeAt (a ++ b) p = sizeAt a p + sizeAt b p := by
  unfold sizeAt; simp

omit [Pod C] in
theorem sizeAt_zero {a : List (Order C)} {p : Nat} (h : ∀ o ∈ a, o.price ≠ p) : sizeAt a p = 0 := by
  unfold sizeAt
  rw [List.filter_eq_nil_iff.2 (by intro o ho; simpa using h o ho)]
  rfl

omit [Pod C] in
theorem levels_eq (os : List (Order C)) :
    levels os = (os.map Order.price).eraseDups.map (fun p => ⟨sizeAt os p, p⟩) := rfl

omit [Pod C] in
/-- A new price opens a level. -/
theorem levels_new {a : List (Order C)} {o : Order C} (h : ∀ x ∈ a, x.price ≠ o.price) :
    levels (a ++ [o]) = levels a ++ [⟨o.qty, o.price⟩] := by
  rw [levels_eq, List.map_append, List.map_singleton, eraseDups_snoc, if_neg, List.map_append, levels_eq]
  · congr 1
    · apply List.map_congr_left
      intro p hp
      rw [List.mem_eraseDups, List.mem_map] at hp
      obtain ⟨x, hx, rfl⟩ := hp
      rw [sizeAt_append, sizeAt_zero (a := [o]) (by simpa using fun e => h x hx e.symm), Nat.add_zero]
    · rw [List.map_singleton, sizeAt_append, sizeAt_zero h]
      simp [sizeAt]
  · simpa using fun x hx => h x hx

omit [Pod C] in
/-- Another order at the last price. -/
theorem levels_same {a : List (Order C)} {o : Order C} {last : Price} (hl : (levels a).getLast? = some last)
    (hp : last.price = o.price) :
    levels (a ++ [o]) = (levels a).dropLast ++ [⟨last.size + o.qty, last.price⟩] := by
  obtain ⟨E, p, hE⟩ : ∃ E p, (a.map Order.price).eraseDups = E ++ [p] := by
    rcases List.eq_nil_or_concat (a.map Order.price).eraseDups with h | ⟨E, p, h⟩
    · rw [levels_eq, h] at hl; simp at hl
    · exact ⟨E, p, by simpa using h⟩
  have hnd := nodup_eraseDups _ (a.map Order.price) (Nat.le_refl _)
  rw [hE] at hnd
  rw [levels_eq, hE] at hl
  simp only [List.map_append, List.map_singleton, List.getLast?_append, List.getLast?_singleton, Option.some_or,
    Option.some.injEq] at hl
  subst hl
  dsimp only at hp
  subst hp
  have hmem : o.price ∈ a.map Order.price := by
    rw [← List.mem_eraseDups, hE]; simp
  rw [levels_eq, List.map_append, List.map_singleton, eraseDups_snoc, if_pos hmem, levels_eq, hE]
  simp only [List.map_append, List.map_singleton, List.dropLast_concat]
  congr 1
  · apply List.map_congr_left
    intro p hp
    have : p ≠ o.price := by
      rintro rfl
      rw [List.nodup_append] at hnd
      exact hnd.2.2 o.price hp o.price (by simp) rfl
    rw [sizeAt_append, sizeAt_zero (a := [o]) (by simpa using this.symm), Nat.add_zero]
  · rw [sizeAt_append]
    simp [sizeAt]

omit [Pod C] in
theorem levels_prefix {a b : List (Order C)} (h : ∀ x ∈ a, ∀ y ∈ b, x.price ≠ y.price) :
    ∃ r, levels (a ++ b) = levels a ++ r := by
  rw [levels_eq, List.map_append, List.eraseDups_append, List.map_append, levels_eq]
  refine ⟨_, congrArg (· ++ _) ?_⟩
  apply List.map_congr_left
  intro p hp
  rw [List.mem_eraseDups, List.mem_map] at hp
  obtain ⟨x, hx, rfl⟩ := hp
  rw [sizeAt_append, sizeAt_zero (a := b) (fun y hy e => h x hx y hy e.symm), Nat.add_zero]

omit [Pod C] in
/-- The orders come sorted by price, upwards or downwards. -/
def ByPrice (os : List (Order C)) : Prop :=
  os.Pairwise (fun a b => a.price ≤ b.price) ∨ os.Pairwise (fun a b => b.price ≤ a.price)

omit [Pod C] in
theorem ByPrice.fresh {a b : List (Order C)} {l o : Order C} (h : ByPrice (a ++ o :: b)) (hl : a.getLast? = some l)
    (hne : l.price ≠ o.price) : ∀ x ∈ a, ∀ y ∈ o :: b, x.price ≠ y.price := by
  rw [List.getLast?_eq_some_iff] at hl
  obtain ⟨a', rfl⟩ := hl
  intro x hx y hy e
  have key : ∀ (R : Order C → Order C → Prop), (∀ z, R z z) → (a' ++ [l] ++ o :: b).Pairwise R →
      R x l ∧ R l o ∧ R o y := by
    intro R hrefl hp
    rw [List.pairwise_append] at hp
    obtain ⟨h1, h2, h3⟩ := hp
    rw [List.pairwise_append] at h1
    refine ⟨?_, h3 l (by simp) o (by simp), ?_⟩
    · rw [List.mem_append] at hx
      rcases hx with hx | hx
      · exact h1.2.2 x hx l (by simp)
      · rw [List.mem_singleton] at hx; subst hx; exact hrefl _
    · rw [List.mem_cons] at hy
      rcases hy with rfl | hy
      · exact hrefl _
      · exact (List.pairwise_cons.1 h2).1 y hy
  rcases h with h | h
  · obtain ⟨h1, h2, h3⟩ := key _ (fun _ => Nat.le_refl _) h
    omega
  · obtain ⟨h1, h2, h3⟩ := key _ (fun _ => Nat.le_refl _) h
    omega

theorem foldUntil_l2 (depth : Nat) : ∀ (b a : List (Order C)), ByPrice (a ++ b) →
    (levels a).length ≤ depth → (levels a).getLast?.map Price.price = a.getLast?.map Order.price →
    foldUntil (fun st x => l2Visit depth st (refOf x)) (levels a) b = (levels (a ++ b)).take depth := by
  intro b
  induction b with
  | nil => intro a _ hlen _; simp [foldUntil, List.take_of_length_le hlen]
  | cons o b ih =>
    intro a hs hlen hlast
    rw [foldUntil]
    have hstep : ∀ raw, l2Visit depth raw (refOf o) = match raw.getLast? with
        | some last =>
          if last.price = o.price then some (raw.dropLast ++ [⟨last.size + o.qty, last.price⟩])
          else if raw.length = depth then none else some (raw ++ [⟨o.qty, o.price⟩])
        | none => if raw.length = depth then none else some (raw ++ [⟨o.qty, o.price⟩]) := fun _ => rfl
    have hnew : (∀ x ∈ a, ∀ y ∈ o :: b, x.price ≠ y.price) →
        (if (levels a).length = depth then levels a
          else foldUntil (fun st x => l2Visit depth st (refOf x)) (levels a ++ [⟨o.qty, o.price⟩]) b) =
        (levels (a ++ o :: b)).take depth := by
      intro hf
      by_cases hd : (levels a).length = depth
      · rw [if_pos hd]
        obtain ⟨r, hr⟩ := levels_prefix hf
        rw [hr, ← hd]
        simp
      · rw [if_neg hd]
        have hl := levels_new (a := a) (o := o) (fun x hx => hf x hx o (by simp))
        rw [← hl, ih (a ++ [o]) (by simpa using hs) (by rw [hl]; simp; omega) (by rw [hl]; simp)]
        simp
    rw [hstep]
    cases hg : (levels a).getLast? with
    | none =>
      rw [hg] at hlast
      have ha : a = [] := by
        cases hh : a.getLast? with
        | none => exact List.getLast?_eq_none_iff.1 hh
        | some x => rw [hh] at hlast; cases hlast
      rw [← hnew (by rw [ha]; simp)]
      dsimp only
      by_cases hd : (levels a).length = depth
      · rw [if_pos hd, if_pos hd]
      · rw [if_neg hd, if_neg hd]
    | some last =>
      rw [hg] at hlast
      dsimp only
      obtain ⟨l, hl, hlp⟩ : ∃ l, a.getLast? = some l ∧ l.price = last.price := by
        cases hh : a.getLast? with
        | none => rw [hh] at hlast; cases hlast
        | some x => rw [hh] at hlast; exact ⟨x, rfl, (Option.some.inj hlast).symm⟩
      by_cases hp : last.price = o.price
      · rw [if_pos hp]
        dsimp only
        have hsame := levels_same hg hp
        rw [← hsame]
        rw [ih (a ++ [o]) (by simpa using hs) ?_ ?_]
        · simp
        · rw [hsame]
          have : (levels a).length ≠ 0 := by
            intro h0
            rw [List.length_eq_zero_iff] at h0
            rw [h0] at hg; cases hg
          simp; omega
        · rw [hsame]; simp [hp]
      · rw [if_neg hp]
        rw [← hnew (hs.fresh hl (by rw [hlp]; exact hp))]
        by_cases hd : (levels a).length = depth
        · rw [if_pos hd, if_pos hd]
        · rw [if_neg hd, if_neg hd]

theorem getL2DepthJS_spec {js : Slab} {s : AOB.Slab C} (hs : Same js s) {os : List (Order C)} (hr : SRep s os)
    (depth : Nat) (increasing : Bool) :
    js.getL2DepthJS depth increasing = .ok ((levels (if increasing then os else os.reverse)).take depth) := by
  unfold Slab.getL2DepthJS
  rw [walkAll_spec hs hr, foldUntil_map]
  have hsort : os.Pairwise (fun a b => a.price ≤ b.price) := by
    refine hr.sorted.imp ?_
    intro a b h
    exact Nat.div_le_div_right (Nat.le_of_lt h)
  have hb : ByPrice (if increasing then os else os.reverse) := by
    cases increasing
    · right
      simp only [Bool.false_eq_true, if_false, List.pairwise_reverse]
      exact hsort
    · exact .inl hsort
  have := foldUntil_l2 depth (if increasing then os else os.reverse) [] (by simpa using hb) (by simp [levels]) rfl
  rw [List.nil_append] at this
  rw [← this]
  cases increasing <;> rfl

/-! ### Looking up a key -/

theorem getNodeByKeyFrom_spec {js : Slab} {s : AOB.Slab C} (hs : Same js s) {k : Nat} (hk : k < 2 ^ 128) (t : Tree C) :
    ∀ fuel, t.Mem s.leafNodes s.innerNodes s.callbackInfos → t.Wf → t.depth < fuel →
    (∃ e ∈ t.ents, e.key = k ∧ js.getNodeByKeyFrom k fuel t.handle = .ok (some e.node)) ∨
    ((∀ e ∈ t.ents, e.key ≠ k) ∧ js.getNodeByKeyFrom k fuel t.handle = .ok none) := by
  induction t with
  | leaf e =>
    intro fuel hm hw hf
    cases fuel with
    | zero => simp at hf
    | succ fuel =>
      unfold Slab.getNodeByKeyFrom
      rw [bind_of_ok (hs.leaf hm.handle_leaf hm.2.1)]
      dsimp only
      by_cases hek : e.key = k
      · left
        exact ⟨e, by simp [Tree.ents], hek, by simp [Entry.node, hek]⟩
      · right
        refine ⟨by intro e' he'; simp only [Tree.ents, List.mem_singleton] at he'; subst he'; exact hek, ?_⟩
        rw [if_pos hek]
  | node i nk p l r ihl ihr =>
    intro fuel hm hw hf
    cases fuel with
    | zero => simp at hf
    | succ fuel =>
      obtain ⟨h1, h2, h3, h4⟩ := hm
      obtain ⟨hp, hnk, hl, hr, hwl, hwr⟩ := hw
      simp only [Tree.depth] at hf
      unfold Slab.getNodeByKeyFrom
      rw [show (Tree.node i nk p l r).handle = notU32 i from rfl,
        bind_of_ok (hs.inner (isInner_not h1) (by rw [notU32_notU32 (by omega)]; exact h2))]
      dsimp only
      rw [bind_of_ok (show toNumber p = .ok p from if_pos (by omega)), Nat.xor_comm nk k]
      by_cases hlt : leadingZeros (k ^^^ nk) < p
      · right
        rw [if_pos hlt]
        refine ⟨?_, rfl⟩
        intro e he hek
        have : Agree p e.key nk := by
          simp only [Tree.ents, List.mem_append] at he
          rcases he with he | he
          · exact (hl e he).1
          · exact (hr e he).1
        rw [hek] at this
        have := (lz_ge_iff hk hnk hp.le).2 this
        omega
      · rw [if_neg hlt, if_neg (by omega), Nat.shiftLeft_eq, Nat.one_mul, and_mask]
        cases hb : k.testBit (127 - p)
        · rcases ihl fuel h3 hwl (by omega) with ⟨e, he, hek, hres⟩ | ⟨hno, hres⟩
          · left; exact ⟨e, by simp [Tree.ents, he], hek, by simpa [InnerNode.child] using hres⟩
          · right
            refine ⟨?_, by simpa [InnerNode.child] using hres⟩
            intro e he
            simp only [Tree.ents, List.mem_append] at he
            rcases he with he | he
            · exact hno e he
            · rintro rfl
              rw [(hr e he).2] at hb; cases hb
        · rcases ihr fuel h4 hwr (by omega) with ⟨e, he, hek, hres⟩ | ⟨hno, hres⟩
          · left; exact ⟨e, by simp [Tree.ents, he], hek, by simpa [InnerNode.child] using hres⟩
          · right
            refine ⟨?_, by simpa [InnerNode.child] using hres⟩
            intro e he
            simp only [Tree.ents, List.mem_append] at he
            rcases he with he | he
            · rintro rfl
              rw [(hl e he).2] at hb; cases hb
            · exact hno e he

theorem getNodeByKey_spec {js : Slab} {s : AOB.Slab C} (hs : Same js s) {os : List (Order C)} (hr : SRep s os)
    {k : Nat} (hk : k < 2 ^ 128) :
    js.getNodeByKey k = .ok ((os.find? (fun o => o.id = k)).map (fun o => (refOf o).leafNode)) := by
  have hsorted := hr.sorted
  obtain ⟨es, ⟨ot, hr, rfl⟩, rfl⟩ := hr
  unfold Slab.getNodeByKey
  rw [hs.header]
  cases ot with
  | none =>
    rw [if_pos (hr.count_zero.2 rfl)]
    rfl
  | some t =>
    have h0 : s.header.leafCount ≠ 0 := by rw [Ne, hr.count_zero]; simp
    have h1 := hr.inners_le
    have h2 := t.depth_le_inners
    have h3 := hs.fuel
    rw [if_neg h0, hr.root_eq]
    simp only [oents] at hsorted ⊢
    rcases getNodeByKeyFrom_spec hs hk t js.fuel hr.mem hr.wf (by omega) with ⟨e, he, hek, hres⟩ | ⟨hno, hres⟩
    · rw [hres]
      have hm : e.order ∈ t.ents.map Entry.order := List.mem_map_of_mem he
      cases hf : (t.ents.map Entry.order).find? (fun o => o.id = k) with
      | none =>
        rw [List.find?_eq_none] at hf
        exact absurd (show e.order.id = k from hek) (by simpa using hf _ hm)
      | some o =>
        have ho := List.mem_of_find?_eq_some hf
        have hok : o.id = k := by simpa using List.find?_some hf
        have : o = e.order := by
          by_contra hne
          rcases List.mem_iff_getElem.1 ho with ⟨i, hi, hio⟩
          rcases List.mem_iff_getElem.1 hm with ⟨j, hj, hje⟩
          have hpg := List.pairwise_iff_getElem.1 hsorted
          rcases Nat.lt_trichotomy i j with hij | hij | hij
          · have := hpg i j hi hj hij
            rw [hio, hje, hok, show e.order.id = k from hek] at this
            omega
          · subst hij; exact hne (hio.symm.trans hje)
          · have := hpg j i hj hi hij
            rw [hio, hje, hok, show e.order.id = k from hek] at this
            omega
        rw [this]
        rfl
    · rw [hres, List.find?_eq_none.2]
      · rfl
      · intro o ho
        rw [List.mem_map] at ho
        obtain ⟨e, he, rfl⟩ := ho
        simpa using (show ¬ e.order.id = k from hno e he)

/-! ### The event queue -/

/-- The client's view of a queue has the contents of the program's. -/
structure SameQ {C : Type} [Pod C] (js : EventQueue) (q : AOB.EventQueue C) : Prop where
  header : js.header = q.header
  slots : js.eventsBuffer.length = q.events.length * 40
  event : ∀ {i e}, q.events[i]? = some e → e = FillEvent.ofBytes (slice js.eventsBuffer (i * 40) (i * 40 + 40))
  len : js.callBackInfoLen = Pod.size C
  info : ∀ {i c}, q.callbackInfos[i]? = some c →
    slice js.callbackInfosBuffer (i * js.callBackInfoLen) (i * js.callBackInfoLen + js.callBackInfoLen) = Pod.toBytes c

theorem parse_same {buf : Bytes} {q : AOB.EventQueue C} (h : QueueParts C buf q) (hex : queueSlack C buf.length = 0) :
    ∃ js, EventQueue.parse (Pod.size C) buf = .ok js ∧ SameQ js q := by
  have hlong := h.long
  have hlen := queue_len_eq (C := C) hlong
  obtain ⟨l1, l2, l3⟩ := h.lengths
  unfold queueSlack at hex
  rw [hex, Nat.add_zero] at hlen
  unfold EventQueue.parse
  rw [bind_of_ok (readUint_ok (by omega)), bind_of_ok (readUint_ok (by omega)), bind_of_ok (readUint_ok (by omega)),
    bind_of_ok (readUint_ok (by omega))]
  have hnum : buf.length - 32 = queueCap C buf.length * (40 + 2 * Pod.size C) := by
    have h1 := Nat.div_add_mod (buf.length - 32) (40 + 2 * Pod.size C)
    rw [hex, Nat.add_zero] at h1
    exact h1.symm.trans (Nat.mul_comm _ _)
  have e1 : 40 * (buf.length - 32) / (40 + 2 * Pod.size C) = 40 * queueCap C buf.length := by
    rw [hnum, ← Nat.mul_assoc, Nat.mul_div_cancel _ (by omega)]
  dsimp only
  rw [e1]
  refine ⟨_, rfl, ?_, ?_, ?_, rfl, ?_⟩
  · rw [h.header]
    unfold EventQueueHeader.ofBytes
    rw [field_seg (by omega), field_seg (by omega), field_seg (by omega)]
  · dsimp only
    rw [slice_length (by omega), l1]; omega
  · intro i e he
    obtain ⟨g1, g2⟩ := castSlice_get h.events he
    dsimp only
    rw [g1, slice_eq, slice_eq, show 32 + 40 * queueCap C buf.length - 32 = queueCap C buf.length * 40 by omega,
      Nat.add_sub_cancel_left]
  · intro i c hc
    obtain ⟨g1, g2⟩ := castSlice_get h.infos hc
    dsimp only
    rw [g1, slice_eq, Pod.toBytes_ofBytes, show 32 + 40 * queueCap C buf.length = 32 + queueCap C buf.length * 40 by omega]
    · rw [Nat.add_sub_cancel_left]
    · rw [List.length_take, List.length_drop]
      rw [Nat.add_mul, Nat.one_mul] at g2
      omega

theorem ofLE_one {b : UInt8} : ofLE [b] = b.toNat := by simp [ofLE]

/-- The client decodes the slot of a pending event. -/
theorem parseEvent_spec {js : EventQueue} {q : AOB.EventQueue C} (hs : SameQ js q) {i : Nat} {e : AOB.Event C}
    (h : q.getEvent i = .ok e.toRef) : js.parseEvent i = .ok (eventOf e) := by
  obtain ⟨f, hf, h⟩ := bind_ok h
  have hf := idx_ok.1 hf
  have hi := lt_of_getElem? hf
  have hd := hs.event hf
  unfold EventQueue.parseEvent
  have hl : (slice js.eventsBuffer (i * 40) (i * 40 + 40)).length = 40 := by
    rw [slice_length]
    · omega
    · rw [hs.slots]; omega
  generalize hg : slice js.eventsBuffer (i * 40) (i * 40 + 40) = data at *
  dsimp only
  obtain ⟨t, data', rfl⟩ : ∃ t d, data = t :: d := by
    cases data with
    | nil => simp at hl
    | cons t d => exact ⟨t, d, rfl⟩
  have htag : f.tag = t.toNat := by rw [hd]; simp [FillEvent.ofBytes, field, ofLE]
  rw [List.getElem?_cons_zero]
  dsimp only
  have hu : ∀ {off n : Nat}, off + n ≤ 40 → readUint (t :: data') off n = .ok (field (t :: data') off n) :=
    fun h => readUint_ok (by rw [hl]; exact h)
  have ha : ∀ {off n : Nat}, off + n ≤ 40 → readArray (t :: data') off n = .ok (slice (t :: data') off (off + n)) :=
    fun h => readArray_ok (by rw [hl]; exact h)
  by_cases h0 : f.tag = TAG_FILL
  · rw [if_pos h0] at h
    obtain ⟨m, hm, h⟩ := bind_ok h
    obtain ⟨k, hk, h⟩ := bind_ok h
    rw [if_pos (by rw [h0] at htag; exact UInt8.toNat_inj.1 htag.symm)]
    rw [bind_of_ok (hu (by omega)), bind_of_ok (ha (by omega)), bind_of_ok (hu (by omega)), bind_of_ok (hu (by omega)),
      bind_of_ok (hu (by omega)), hs.info (idx_ok.1 hm), hs.info (idx_ok.1 hk)]
    have h := Except.ok.inj h
    cases e with
    | out side id base c => cases h
    | fill side id base quote m' t' =>
      injection h with h1 h2 h3
      subst h2 h3
      rw [h1] at hd
      have := FillEvent.mk.inj hd
      obtain ⟨-, g1, -, g2, g3, g4⟩ := this
      rw [← g1, ← g2, ← g3, ← g4]
      cases side <;> rfl
  · rw [if_neg h0] at h
    by_cases h1 : f.tag = TAG_OUT
    · rw [if_pos h1] at h
      obtain ⟨m, hm, h⟩ := bind_ok h
      have ht1 : t = 1 := by rw [h1] at htag; exact UInt8.toNat_inj.1 htag.symm
      rw [if_neg (by rw [ht1]; decide), if_pos ht1]
      rw [bind_of_ok (hu (by omega)), bind_of_ok (hu (by omega)), bind_of_ok (ha (by omega)), bind_of_ok (hu (by omega)),
        bind_of_ok (hu (by omega)), hs.info (idx_ok.1 hm)]
      have h := Except.ok.inj h
      cases e with
      | fill side id base quote m' t' => cases h
      | out side id base c =>
        injection h with h2 h3
        subst h3
        have hc : f.castOut = _ := h2
        unfold FillEvent.castOut at hc
        obtain ⟨-, g1, g2, g3, g4⟩ := OutEvent.mk.inj hc
        have hpad : f.padding = List.replicate 6 0 := by
          have := congrArg (List.take 6) g2
          have hl6 : f.padding.length = 6 := by
            rw [hd]
            simp only [FillEvent.ofBytes, List.length_take, List.length_drop, hl]; rfl
          rw [List.take_append_of_le_length (by omega), List.take_of_length_le (by omega)] at this
          rw [this]; rfl
        rw [hd] at g1 g3 g4 hpad
        simp only [FillEvent.ofBytes] at g1 g3 g4 hpad
        have hdel : field (t :: data') 2 1 = 0 := by
          unfold field
          have : List.take 1 (List.drop 2 (t :: data')) = [0] := by
            have := congrArg (List.take 1) hpad
            rw [List.take_take] at this
            exact this
          rw [this]; rfl
        rw [g1, g3, g4, hdel]
        cases side <;> rfl
    · rw [if_neg h1] at h; cases h

theorem peekAt_spec {js : EventQueue} {q : AOB.EventQueue C} (hs : SameQ js q) {es : List (AOB.Event C)} (hq : QRep q es)
    (hh : q.events.length ≤ 2 ^ 53) {i : Nat} (hi : i < es.length) :
    js.peekAt i = .ok (eventOf es[i]) := by
  obtain ⟨hinv, hc, hev⟩ := hq
  have h1 := hev i (by simpa using hi)
  have h2 := hinv.head
  have h3 := hinv.pos
  unfold EventQueue.peekAt
  rw [hs.slots, Nat.mul_div_cancel _ (by omega), hs.header]
  rw [bind_of_ok (show toNumber q.header.head = .ok _ from if_pos (by omega)), if_neg (by omega), Nat.add_comm]
  rw [List.getElem_map] at h1
  exact parseEvent_spec hs h1

theorem parseUpTo_spec {js : EventQueue} {q : AOB.EventQueue C} (hs : SameQ js q) {es : List (AOB.Event C)} (hq : QRep q es)
    (h0 : q.header.head = 0) : ∀ n ≤ es.length, js.parseUpTo n = .ok ((es.take n).map eventOf) := by
  obtain ⟨hinv, hc, hev⟩ := hq
  have hcount := hinv.count
  rw [List.length_map] at hc
  intro n
  induction n with
  | zero => intro _; rfl
  | succ n ih =>
    intro hn
    rw [EventQueue.parseUpTo, bind_of_ok (ih (by omega))]
    have h1 := hev n (by rw [List.length_map]; omega)
    rw [h0, Nat.zero_add, Nat.mod_eq_of_lt (by omega), List.getElem_map] at h1
    rw [bind_of_ok (parseEvent_spec hs h1), List.take_add_one, List.getElem?_eq_getElem (by omega), List.map_append]
    rfl

theorem parseFill_spec {js : EventQueue} {q : AOB.EventQueue C} (hs : SameQ js q) {es : List (AOB.Event C)} (hq : QRep q es)
    (hh : q.events.length < 2 ^ 53) (h0 : q.header.head = 0) (limit : Option Nat) :
    js.parseFill limit = .ok (((match limit with
      | some (l + 1) => es.take (l + 1)
      | _ => es).map eventOf).filter Event.isFill) := by
  have hup := parseUpTo_spec hs hq h0
  obtain ⟨hinv, hc, hev⟩ := hq
  have hcount := hinv.count
  rw [List.length_map] at hc
  unfold EventQueue.parseFill
  rw [hs.header, bind_of_ok (show toNumber q.header.count = .ok _ from if_pos (by omega))]
  cases limit with
  | none => dsimp only; rw [bind_of_ok (hup _ (by omega)), List.take_of_length_le (by omega)]
  | some l =>
    cases l with
    | zero => dsimp only; rw [if_pos rfl, bind_of_ok (hup _ (by omega)), List.take_of_length_le (by omega)]
    | succ l =>
      dsimp only
      rw [if_neg (by omega), bind_of_ok (hup _ (by omega)), ← hc]
      congr 3
      rcases Nat.le_total (l + 1) es.length with h | h
      · rw [Nat.min_eq_left h]
      · rw [Nat.min_eq_right h, List.take_of_length_le (Nat.le_refl _), List.take_of_length_le h]

end Js
end AOB
