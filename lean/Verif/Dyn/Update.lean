import Verif.Dyn.Connect

/-!
# The update of a dynamic topological order
-/

namespace Verif.Dyn

open Verif (Direction)
open Verif.PG
open Verif.Algo
open Verif.Convex

variable {D : TSort} {V : Nat → Prop} {R : Nat → Nat → Prop} {G : View} {a b pa pb : Nat}

theorem varc_in (hG : G.WF) {x y : Nat} : VArc G .incoming x y ↔ VArc G .outgoing y x := by
  constructor <;> rintro ⟨p, hp, q, hq, hn⟩
  · exact ⟨q, by simpa [Direction.reverse] using hn, p, hG.link_sym _ _ hq, hp⟩
  · exact ⟨q, by simpa [Direction.reverse] using hn, p, hG.link_sym _ _ hq, hp⟩

theorem cone_out (h : Valid D V R) (hs : Shows G R a b) (hpa : D.pos a = some pa) (hpb : D.pos b = some pb) (hlt : pb < pa) :
    ∃ F, D.cone G b pa .outgoing = some F ∧ F.Nodup ∧ [b] <+: F ∧
      ∀ x, x ∈ F ↔ Relation.ReflTransGen R b x ∧ ∃ p, D.pos x = some p ∧ p < pa := by
  have hVb := h.tracked.2 ⟨pb, hpb⟩
  have hib : inb D .outgoing pa b := ⟨pb, hpb, hlt⟩
  obtain ⟨F, h1, h2, h3⟩ := dfs_ok (G := G) h .outgoing pa (by
    intro x _ y hy
    rcases hs.new x y ((mem_neighbours hs.wf).1 hy) with h' | h'
    · exact (h.live h').2
    · rw [h'.2]; exact hVb) (f := D.order.length + 1) (n := b) (cone := []) hVb (by simp) (by
    have := List.length_filter_le (fun x => !([] : List Nat).contains x) D.order
    omega)
  have hbF := (h3 hib).1
  refine ⟨F, h1, h2.nodup, by simpa using (h3 hib).2 (by simp), ?_⟩
  have hna : ∀ x, inb D .outgoing pa x → x ≠ a := by
    rintro x ⟨p, hp, hp'⟩ rfl
    rw [hpa] at hp; simp at hp hp'; omega
  intro x
  constructor
  · intro hx
    rcases h2.reach x hx with hx | ⟨_, hxi, hx⟩
    · simp at hx
    · refine ⟨?_, hxi⟩
      clear hxi
      have : Relation.ReflTransGen R b x ∧ inb D .outgoing pa x := by
        clear * - hx hs hib hna
        induction hx with
        | refl => exact ⟨.refl, hib⟩
        | @tail y z _ hyz ih =>
          refine ⟨ih.1.tail ?_, hyz.2⟩
          rcases hs.new y z ((mem_neighbours hs.wf).1 hyz.1) with h | h
          · exact h
          · exact absurd h.1 (hna y ih.2)
      exact this.1
  · rintro ⟨hx, p, hp, hlt⟩
    clear h3 hna h1
    induction hx generalizing p with
    | refl => exact hbF
    | @tail y z hby hyz ih =>
      obtain ⟨q, hq⟩ := h.tracked.1 (h.live hyz).1
      have hqp := h.lt hyz hq hp
      have hy := ih q hq (by omega)
      exact h2.closed y hy (by simp) z ((mem_neighbours hs.wf).2 (hs.old y z hyz)) ⟨p, hp, hlt⟩

theorem cone_in (h : Valid D V R) (hs : Shows G R a b) (hpa : D.pos a = some pa) (hpb : D.pos b = some pb) (hlt : pb < pa) :
    ∃ B, D.cone G a pb .incoming = some B ∧ B.Nodup ∧ [a] <+: B ∧
      ∀ x, x ∈ B ↔ Relation.ReflTransGen R x a ∧ ∃ p, D.pos x = some p ∧ pb < p := by
  have hVa := h.tracked.2 ⟨pa, hpa⟩
  have hia : inb D .incoming pb a := ⟨pa, hpa, hlt⟩
  obtain ⟨B, h1, h2, h3⟩ := dfs_ok (G := G) h .incoming pb (by
    intro x _ y hy
    rcases hs.new y x ((varc_in hs.wf).1 ((mem_neighbours hs.wf).1 hy)) with h' | h'
    · exact (h.live h').1
    · rw [h'.1]; exact hVa) (f := D.order.length + 1) (n := a) (cone := []) hVa (by simp) (by
    have := List.length_filter_le (fun x => !([] : List Nat).contains x) D.order
    omega)
  have haB := (h3 hia).1
  refine ⟨B, h1, h2.nodup, by simpa using (h3 hia).2 (by simp), ?_⟩
  have hnb : ∀ x, inb D .incoming pb x → x ≠ b := by
    rintro x ⟨p, hp, hp'⟩ rfl
    rw [hpb] at hp; simp at hp hp'; omega
  intro x
  constructor
  · intro hx
    rcases h2.reach x hx with hx | ⟨_, hxi, hx⟩
    · simp at hx
    · refine ⟨?_, hxi⟩
      clear hxi
      have : Relation.ReflTransGen R x a ∧ inb D .incoming pb x := by
        clear * - hx hs hia hnb
        induction hx with
        | refl => exact ⟨.refl, hia⟩
        | @tail y z _ hyz ih =>
          refine ⟨.head ?_ ih.1, hyz.2⟩
          rcases hs.new z y ((varc_in hs.wf).1 ((mem_neighbours hs.wf).1 hyz.1)) with h | h
          · exact h
          · exact absurd h.2 (hnb y ih.2)
      exact this.1
  · rintro ⟨hx, p, hp, hlt'⟩
    clear h3 hnb h1
    induction hx using Relation.ReflTransGen.head_induction_on generalizing p with
    | refl => exact haB
    | @head y z hyz hza ih =>
      obtain ⟨q, hq⟩ := h.tracked.1 (h.live hyz).2
      have hqp := h.lt hyz hp hq
      have hz := ih q hq (by omega)
      exact h2.closed z hz (by simp) y ((mem_neighbours hs.wf).2 ((varc_in hs.wf).2 (hs.old y z hyz))) ⟨p, hp, hlt'⟩

theorem write_ok {ws : List Nat} (hnd : ws.Nodup) {i : Nat} (hlen : i + ws.length ≤ D.order.length) :
    ∃ D', TSort.write ws i D = some D' ∧
      D'.order = D.order.take i ++ ws ++ D.order.drop (i + ws.length) ∧
      ∀ x, D'.pos x = if x ∈ ws then some (i + ws.idxOf x) else D.pos x := by
  induction ws generalizing i D with
  | nil => exact ⟨D, rfl, by simp, by simp⟩
  | cons w ws ih =>
    rw [List.nodup_cons] at hnd
    rw [List.length_cons] at hlen
    obtain ⟨D', h1, h2, h3⟩ := ih (D := ⟨D.order.set i w, fun x => if x = w then some i else D.pos x⟩) hnd.2 (i := i + 1) (by
      simp only [List.length_set]; omega)
    refine ⟨D', ?_, ?_, ?_⟩
    · simp only [TSort.write]
      rw [if_pos (by omega)]; exact h1
    · rw [h2]
      simp only
      rw [List.take_succ, List.getElem?_set_self (by omega), List.take_set_of_le (by omega), List.drop_set_of_lt (by omega),
        List.length_cons]
      simp only [Option.toList_some, List.append_assoc, List.singleton_append]
      rw [show i + 1 + ws.length = i + (ws.length + 1) by omega]
    · intro x
      rw [h3]
      by_cases hx : x ∈ ws
      · have : w ≠ x := fun e => hnd.1 (e ▸ hx)
        rw [if_pos hx, if_pos (by simp [hx]), List.idxOf_cons_ne _ this]
        congr 1; omega
      · rw [if_neg hx]
        by_cases hxw : x = w
        · subst hxw; simp
        · simp [hx, hxw]

/-- The nodes from position `pb` to position `pa`. -/
def seg (D : TSort) (pb pa : Nat) : List Nat := (D.order.take (pa + 1)).drop pb

theorem mem_seg (h : Valid D V R) {x : Nat} : x ∈ seg D pb pa ↔ ∃ p, D.pos x = some p ∧ pb ≤ p ∧ p ≤ pa := by
  unfold seg
  rw [List.mem_iff_getElem?]
  constructor
  · rintro ⟨i, hi⟩
    rw [List.getElem?_drop, List.getElem?_take] at hi
    split at hi
    · exact ⟨pb + i, (h.pos x _).2 hi, by omega, by omega⟩
    · simp at hi
  · rintro ⟨p, hp, h1, h2⟩
    refine ⟨p - pb, ?_⟩
    rw [List.getElem?_drop, List.getElem?_take, if_pos (by omega), show pb + (p - pb) = p by omega]
    exact (h.pos x p).1 hp

theorem length_seg (h : Valid D V R) (hpa : D.pos a = some pa) (hlt : pb < pa) : (seg D pb pa).length = pa - pb + 1 := by
  have := (List.getElem?_eq_some_iff.1 ((h.pos a pa).1 hpa)).1
  unfold seg
  simp only [List.length_drop, List.length_take]
  omega

theorem nodup_seg (h : Valid D V R) : (seg D pb pa).Nodup :=
  h.nodup.sublist ((List.drop_sublist _ _).trans (List.take_sublist _ _))

/-- The two cones with what is known of them. -/
structure Cones (D : TSort) (R : Nat → Nat → Prop) (a b pa pb : Nat) (B F : List Nat) : Prop where
  nodup : (B ++ F).Nodup
  headB : [a] <+: B
  headF : [b] <+: F
  memB : ∀ x, x ∈ B ↔ Relation.ReflTransGen R x a ∧ ∃ p, D.pos x = some p ∧ pb < p
  memF : ∀ x, x ∈ F ↔ Relation.ReflTransGen R b x ∧ ∃ p, D.pos x = some p ∧ p < pa

theorem Cones.seg {B F : List Nat} (hc : Cones D R a b pa pb B F) (h : Valid D V R) (hpa : D.pos a = some pa)
    (hpb : D.pos b = some pb) {x : Nat} (hx : x ∈ B ++ F) : x ∈ seg D pb pa := by
  rw [mem_seg h]
  rcases List.mem_append.1 hx with hx | hx
  · obtain ⟨h1, p, hp, h2⟩ := (hc.memB x).1 hx
    exact ⟨p, hp, by omega, h.le h1 hp hpa⟩
  · obtain ⟨h1, p, hp, h2⟩ := (hc.memF x).1 hx
    exact ⟨p, hp, h.le h1 hpb hp, by omega⟩

theorem update_cones (h : Valid D V R) (hs : Shows G R a b) (hpa : D.pos a = some pa) (hpb : D.pos b = some pb)
    (hlt : pb < pa) (hnc : ¬ Relation.ReflTransGen R b a) :
    ∃ B F D', D.cone G a pb .incoming = some B ∧ D.cone G b pa .outgoing = some F ∧ Cones D R a b pa pb B F ∧
      (B ++ F).length ≤ pa - pb + 1 ∧ D.updateOrder G a b = some D' ∧
      D'.order = D.order.take pb ++ (B ++ F) ++ D.order.drop (pb + (B ++ F).length) ∧
      ∀ x, D'.pos x = if x ∈ B ++ F then some (pb + (B ++ F).idxOf x) else D.pos x := by
  obtain ⟨F, f1, f2, f3, f4⟩ := cone_out h hs hpa hpb hlt
  obtain ⟨B, b1, b2, b3, b4⟩ := cone_in h hs hpa hpb hlt
  have hnd : (B ++ F).Nodup := by
    rw [List.nodup_append]
    refine ⟨b2, f2, ?_⟩
    rintro x hx y hy rfl
    exact hnc (((f4 x).1 hy).1.trans ((b4 x).1 hx).1)
  have hc : Cones D R a b pa pb B F := ⟨hnd, b3, f3, b4, f4⟩
  have hle : (B ++ F).length ≤ pa - pb + 1 := by
    rw [← length_seg h hpa hlt]
    exact (List.subperm_of_subset hnd (fun x hx => hc.seg h hpa hpb hx)).length_le
  have hpl := (List.getElem?_eq_some_iff.1 ((h.pos a pa).1 hpa)).1
  obtain ⟨D', w1, w2, w3⟩ := write_ok (D := D) hnd (i := pb) (by omega)
  refine ⟨B, F, D', b1, f1, hc, hle, ?_, w2, w3⟩
  unfold TSort.updateOrder
  rw [hpa, hpb]
  simp only
  rw [if_neg (by omega), f1, b1]
  exact w1

/-- Every node between `b` and `a` is reached from `b` or reaches `a`. -/
def Related (D : TSort) (R : Nat → Nat → Prop) (a b pa pb : Nat) : Prop :=
  ∀ x p, D.pos x = some p → pb < p → p < pa → Relation.ReflTransGen R b x ∨ Relation.ReflTransGen R x a

theorem related_perm (h : Valid D V R) (hpa : D.pos a = some pa) (hpb : D.pos b = some pb) (hlt : pb < pa) {B F : List Nat}
    (hc : Cones D R a b pa pb B F) : Related D R a b pa pb ↔ (seg D pb pa).Perm (B ++ F) := by
  constructor
  · intro hr
    have hsub : seg D pb pa ⊆ B ++ F := by
      intro x hx
      obtain ⟨p, hp, h1, h2⟩ := (mem_seg h).1 hx
      rw [List.mem_append]
      rcases Nat.lt_or_eq_of_le h1 with h1 | h1
      · rcases Nat.lt_or_eq_of_le h2 with h2 | h2
        · rcases hr x p hp h1 h2 with h3 | h3
          · exact .inr ((hc.memF x).2 ⟨h3, p, hp, h2⟩)
          · exact .inl ((hc.memB x).2 ⟨h3, p, hp, h1⟩)
        · subst h2
          have := h.inj hp hpa
          subst this
          exact .inl ((hc.memB x).2 ⟨.refl, p, hp, h1⟩)
      · subst h1
        have := h.inj hp hpb
        subst this
        exact .inr ((hc.memF x).2 ⟨.refl, _, hp, hlt⟩)
    rw [List.perm_ext_iff_of_nodup (nodup_seg h) hc.nodup]
    exact fun x => ⟨fun hx => hsub hx, fun hx => hc.seg h hpa hpb hx⟩
  · intro hp x p hx h1 h2
    have := hp.mem_iff.1 ((mem_seg h).2 ⟨p, hx, by omega, by omega⟩)
    rcases List.mem_append.1 this with h' | h'
    · exact .inr ((hc.memB x).1 h').1
    · exact .inl ((hc.memF x).1 h').1

theorem order_split (h : Valid D V R) (hlt : pb < pa) :
    D.order = D.order.take pb ++ seg D pb pa ++ D.order.drop (pa + 1) := by
  unfold seg
  have h1 : D.order.take pb = (D.order.take (pa + 1)).take pb := by rw [List.take_take, Nat.min_eq_left (by omega)]
  rw [h1, List.take_append_drop, List.take_append_drop]

/-- Whether the update keeps each node once. -/
theorem update_nodup (h : Valid D V R) (hpa : D.pos a = some pa) (hpb : D.pos b = some pb) (hlt : pb < pa) {B F : List Nat}
    (hc : Cones D R a b pa pb B F) (hle : (B ++ F).length ≤ pa - pb + 1) {order : List Nat}
    (ho : order = D.order.take pb ++ (B ++ F) ++ D.order.drop (pb + (B ++ F).length)) :
    (order.Nodup ↔ Related D R a b pa pb) ∧ (Related D R a b pa pb → order.Perm D.order) := by
  have hpl := (List.getElem?_eq_some_iff.1 ((h.pos a pa).1 hpa)).1
  have key : Related D R a b pa pb → order.Perm D.order := by
    intro hr
    have hp := (related_perm h hpa hpb hlt hc).1 hr
    have hl := hp.length_eq
    rw [length_seg h hpa hlt] at hl
    rw [ho, ← hl, show pb + (pa - pb + 1) = pa + 1 by omega]
    conv => rhs; rw [order_split h hlt]
    exact (hp.symm.append_left _).append_right _
  refine ⟨⟨?_, fun hr => (key hr).nodup_iff.2 h.nodup⟩, key⟩
  intro hnd
  rw [related_perm h hpa hpb hlt hc]
  refine (List.Perm.symm ?_)
  refine (List.subperm_of_subset hc.nodup (fun x hx => hc.seg h hpa hpb hx)).perm_of_length_le ?_
  rw [length_seg h hpa hlt]
  by_contra hlen
  -- `a` stands at `pb` and still at `pa`
  have e1 : order[pb]? = some a := by
    obtain ⟨t, ht⟩ := hc.headB
    rw [ho, ← ht, List.append_assoc, List.getElem?_append_right (by simp)]
    simp [Nat.min_eq_left (by omega : pb ≤ D.order.length)]
  have e2 : order[pa]? = some a := by
    rw [ho, List.getElem?_append_right (by simp only [List.length_append, List.length_take] at hlen hle ⊢; omega), List.getElem?_drop]
    have : (D.order.take pb ++ (B ++ F)).length = pb + (B ++ F).length := by
      simp only [List.length_append, List.length_take]; omega
    rw [this, show pb + (B ++ F).length + (pa - (pb + (B ++ F).length)) = pa by omega]
    exact (h.pos a pa).1 hpa
  have := (List.getElem?_inj (List.getElem?_eq_some_iff.1 e1).1 hnd).1 (e1.trans e2.symm)
  omega

/-- No arc goes backward in a list. -/
def Sorted (R : Nat → Nat → Prop) (l : List Nat) : Prop := ∀ x y, R x y → x ∈ l → y ∈ l → Before l x y

/-- When the update keeps each node once, the result is valid exactly if the cones were found in
a topological order. -/
theorem update_valid (h : Valid D V R) (hpa : D.pos a = some pa) (hpb : D.pos b = some pb) (hlt : pb < pa)
    (hnc : ¬ Relation.ReflTransGen R b a) {B F : List Nat}
    (hc : Cones D R a b pa pb B F) (hle : (B ++ F).length ≤ pa - pb + 1) {D' : TSort}
    (ho : D'.order = D.order.take pb ++ (B ++ F) ++ D.order.drop (pb + (B ++ F).length))
    (hpos : ∀ x, D'.pos x = if x ∈ B ++ F then some (pb + (B ++ F).idxOf x) else D.pos x) :
    Valid D' V (Plus R a b) ↔ Related D R a b pa pb ∧ Sorted R B ∧ Sorted R F := by
  obtain ⟨hn, hperm⟩ := update_nodup h hpa hpb hlt hc hle ho
  have hpl := (List.getElem?_eq_some_iff.1 ((h.pos a pa).1 hpa)).1
  constructor
  · intro hv
    refine ⟨hn.1 hv.nodup, ?_, ?_⟩
    · intro x y hxy hx hy
      have := hv.forward x y (.inl hxy)
      have hnd := hv.nodup
      rw [ho] at this hnd
      rw [List.append_assoc] at this hnd
      have h1 := before_right hnd this (by simp [hx])
      have hnd2 := (List.nodup_append.1 hnd).2.1
      have h2 := before_left hnd2 h1 (by simp [hy])
      exact before_left hc.nodup h2 hy
    · intro x y hxy hx hy
      have := hv.forward x y (.inl hxy)
      have hnd := hv.nodup
      rw [ho] at this hnd
      rw [List.append_assoc] at this hnd
      have h1 := before_right hnd this (by simp [hx])
      have hnd2 := (List.nodup_append.1 hnd).2.1
      have h2 := before_left hnd2 h1 (by simp [hy])
      exact before_right hc.nodup h2 hx
  · rintro ⟨hr, hB, hF⟩
    have hp := hperm hr
    have hsp := (related_perm h hpa hpb hlt hc).1 hr
    have hl := hsp.length_eq
    rw [length_seg h hpa hlt] at hl
    rw [← hl, show pb + (pa - pb + 1) = pa + 1 by omega] at ho
    have hnd := hn.2 hr
    have hsplit := order_split h hlt
    have hndold := h.nodup
    refine ⟨hnd, fun n => by rw [hp.mem_iff, h.mem], ?_, ?_⟩
    · -- positions
      intro x i
      rw [hpos]
      by_cases hx : x ∈ B ++ F
      · rw [if_pos hx, Option.some.injEq]
        have hxi : D'.order[pb + (B ++ F).idxOf x]? = some x := by
          have hxl := List.idxOf_lt_length_iff.2 hx
          rw [ho, List.append_assoc, List.getElem?_append_right (by simp),
            List.getElem?_append_left (by simp only [List.length_take] at hxl ⊢; omega)]
          have : pb + (B ++ F).idxOf x - (D.order.take pb).length = (B ++ F).idxOf x := by
            simp only [List.length_take]; omega
          rw [this, List.getElem?_eq_getElem hxl]; simp
        constructor
        · rintro rfl; exact hxi
        · intro hi
          exact ((List.getElem?_inj (List.getElem?_eq_some_iff.1 hi).1 hnd).1 (hi.trans hxi.symm)).symm
      · rw [if_neg hx, h.pos]
        have hout : ∀ l : List Nat, l.length = pa - pb + 1 → (x ∉ l) →
            ((D.order.take pb ++ l ++ D.order.drop (pa + 1))[i]? = some x ↔
              (i < pb ∧ D.order[i]? = some x) ∨ (pa < i ∧ D.order[i]? = some x)) := by
          intro l hl hxl
          have hlt' : (D.order.take pb).length = pb := by simp only [List.length_take]; omega
          by_cases h1 : i < pb
          · rw [List.append_assoc, List.getElem?_append_left (by omega), List.getElem?_take_of_lt h1]
            constructor
            · intro h; exact .inl ⟨h1, h⟩
            · rintro (⟨_, h⟩ | ⟨h, _⟩)
              · exact h
              · omega
          · by_cases h2 : i ≤ pa
            · rw [List.append_assoc, List.getElem?_append_right (by omega), List.getElem?_append_left (by omega)]
              constructor
              · intro h; exact absurd (List.mem_of_getElem? h) hxl
              · rintro (⟨h, _⟩ | ⟨h, _⟩) <;> omega
            · rw [List.getElem?_append_right (by rw [List.length_append]; omega), List.getElem?_drop]
              rw [show pa + 1 + (i - (D.order.take pb ++ l).length) = i by rw [List.length_append]; omega]
              constructor
              · intro h; exact .inr ⟨by omega, h⟩
              · rintro (⟨h, _⟩ | ⟨_, h⟩)
                · omega
                · exact h
        have hxs : x ∉ seg D pb pa := fun hc => hx (hsp.mem_iff.1 hc)
        rw [ho, hout _ hl.symm hx]
        conv => lhs; rw [hsplit]
        exact hout _ (length_seg h hpa hlt) hxs
    · -- arcs
      rintro x y (hxy | ⟨rfl, rfl⟩)
      · have hb := h.forward x y hxy
        rw [hsplit] at hb hndold
        rw [ho]
        have hx : x ∈ D.order := (before_index (h.forward x y hxy)).1
        have hy : y ∈ D.order := (before_index (h.forward x y hxy)).2
        rw [hsplit] at hx hy
        by_cases hyQ : y ∈ D.order.drop (pa + 1)
        · by_cases hxQ : x ∈ D.order.drop (pa + 1)
          · exact before_append_right (before_right hndold hb hxQ)
          · refine before_append_mem ?_ hyQ
            rcases List.mem_append.1 hx with hx | hx
            · rcases List.mem_append.1 hx with hx | hx
              · simp [hx]
              · exact List.mem_append_right _ (hsp.mem_iff.1 hx)
            · exact absurd hx hxQ
        · have hy' : y ∈ D.order.take pb ++ seg D pb pa := by
            rcases List.mem_append.1 hy with hy | hy
            · exact hy
            · exact absurd hy hyQ
          have hb' := before_left hndold hb hy'
          have hnd' := (List.nodup_append.1 hndold).1
          apply before_append_left
          by_cases hyP : y ∈ D.order.take pb
          · exact before_append_left (before_left hnd' hb' hyP)
          · have hyM : y ∈ seg D pb pa := by
              rcases List.mem_append.1 hy' with hy | hy
              · exact absurd hy hyP
              · exact hy
            have hyM' := hsp.mem_iff.1 hyM
            by_cases hxP : x ∈ D.order.take pb
            · exact before_append_mem hxP hyM'
            · have hxM : x ∈ seg D pb pa := by
                rcases List.mem_append.1 (before_index hb').1 with hx | hx
                · exact absurd hx hxP
                · exact hx
              have hxM' := hsp.mem_iff.1 hxM
              apply before_append_right
              rcases List.mem_append.1 hxM' with hxB | hxF <;> rcases List.mem_append.1 hyM' with hyB | hyF
              · exact before_append_left (hB x y hxy hxB hyB)
              · exact before_append_mem hxB hyF
              · exact absurd ((((hc.memF x).1 hxF).1.tail hxy).trans ((hc.memB y).1 hyB).1) hnc
              · exact before_append_right (hF x y hxy hxF hyF)
      · rw [ho]
        apply before_append_left
        apply before_append_right
        exact before_append_mem (hc.headB.subset (by simp)) (hc.headF.subset (by simp))

end Verif.Dyn
