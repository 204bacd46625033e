import Verif.Undo.GraphLemmas

/-!
# Link calls change only the ports they touch

Lemmas.
-/

namespace Verif.Undo

open Verif.PG

/-- Several writes to the links. -/
def writes (W : List (Nat × Option Nat)) (l : List (Option Nat)) : List (Option Nat) := W.foldl (fun l w => l.set w.1 w.2) l

theorem writes_other {W : List (Nat × Option Nat)} {x : Nat} (h : ∀ w ∈ W, w.1 ≠ x) (l : List (Option Nat)) : (writes W l)[x]? = l[x]? := by
  induction W generalizing l with
  | nil => rfl
  | cons w W ih =>
    have : writes (w :: W) l = writes W (l.set w.1 w.2) := rfl
    rw [this, ih (fun v hv => h v (List.mem_cons_of_mem _ hv)), List.getElem?_set_ne (h w (by simp))]

theorem writes_set {W : List (Nat × Option Nat)} {x : Nat} (h : ∀ w ∈ W, w.1 ≠ x) (l : List (Option Nat)) (y : Option Nat) :
    writes W (l.set x y) = (writes W l).set x y := by
  induction W generalizing l with
  | nil => rfl
  | cons w W ih =>
    show writes W ((l.set x y).set w.1 w.2) = (writes W (l.set w.1 w.2)).set x y
    rw [List.set_comm _ _ (Ne.symm (h w (by simp))), ih (fun v hv => h v (List.mem_cons_of_mem _ hv))]

theorem writes_comm {V W : List (Nat × Option Nat)} (h : ∀ v ∈ V, ∀ w ∈ W, v.1 ≠ w.1) (l : List (Option Nat)) :
    writes V (writes W l) = writes W (writes V l) := by
  induction V generalizing l with
  | nil => rfl
  | cons v V ih =>
    show writes V ((writes W l).set v.1 v.2) = writes W (writes V (l.set v.1 v.2))
    rw [← writes_set (fun w hw => (h v (by simp) w hw).symm), ih fun u hu => h u (List.mem_cons_of_mem _ hu)]

/-- The state after writes to the links. -/
def after (g : PG) (W : List (Nat × Option Nat)) (up down : Nat) : PG :=
  { g with portLink := writes W g.portLink, linkCount := g.linkCount + up - down }

theorem unlink_pos {g : PG} (hI : PG.Inv g) {p q : Nat} {x : Nat × Direction} (hp : g.port? p = some x) (hl : g.lk p = some q) :
    0 < g.linkCount ∧ q < g.portLink.length := by
  have hp' : (g.port? p).isSome := by rw [hp]; rfl
  have hlt := PG.port?_lt hp'
  have hlen := hI.len
  obtain ⟨own, fs, hP, hfull⟩ := hI.slots
  obtain ⟨n, d⟩ := x
  obtain ⟨-, n', hq⟩ := hP.links p n d q hp hl
  have hq' := PG.port?_lt (g := g) (p := q) (by rw [hq]; rfl)
  refine ⟨?_, by omega⟩
  have hpos : ∀ d, linkedDir g.port? g.lk d p = true → 0 < cnt g.portMeta.length (linkedDir g.port? g.lk d) := by
    intro d hd
    unfold cnt
    rw [List.countP_pos_iff]
    exact ⟨p, List.mem_range.2 hlt, hd⟩
  cases d with
  | outgoing =>
    rw [hI.outCount]
    exact hpos .outgoing (by simp [linkedDir, hp, hl])
  | incoming =>
    rw [hI.inCount]
    exact hpos .incoming (by simp [linkedDir, hp, hl])

/-- A call writes only to ports it touches, and what it does is determined by these. -/
theorem call_local {g : PG} (hI : PG.Inv g) (c : LinkCall) : ∃ r W up down, (∀ w ∈ W, c.touches g w.1) ∧
    ∀ k : PG, PG.Inv k → k.portMeta = g.portMeta → (∀ x, c.touches g x → k.portLink[x]? = g.portLink[x]?) →
      c.call k = some (r, after k W up down) ∧ down ≤ k.linkCount := by
  have hport : ∀ k : PG, k.portMeta = g.portMeta → k.port? = g.port? := by
    intro k hk
    funext p
    unfold PG.port?
    rw [hk]
  have hget : ∀ p x, g.port? p = some x → g.portLink[p]? = some (g.lk p) := by
    intro p x hp
    have := PG.port?_lt (g := g) (p := p) (by rw [hp]; rfl)
    rw [← hI.len] at this
    exact PG.getElem?_portLink this
  cases c with
  | link a b =>
    have fin : ∀ r, (∀ k : PG, k.portMeta = g.portMeta → k.portLink[a]? = g.portLink[a]? → k.portLink[b]? = g.portLink[b]? →
        k.linkPorts a b = some (r, k)) →
        ∃ r W up down, (∀ w ∈ W, (LinkCall.link a b).touches g w.1) ∧
          ∀ k : PG, PG.Inv k → k.portMeta = g.portMeta → (∀ x, (LinkCall.link a b).touches g x → k.portLink[x]? = g.portLink[x]?) →
            (LinkCall.link a b).call k = some (r, after k W up down) ∧ down ≤ k.linkCount := by
      intro r h
      refine ⟨.link r, [], 0, 0, by simp, fun k _ h1 h2 => ⟨?_, Nat.zero_le _⟩⟩
      simp only [LinkCall.call]
      rw [h k h1 (h2 a (.inl rfl)) (h2 b (.inr rfl))]
      rfl
    cases ha : g.port? a with
    | none =>
      refine fin (.error (.unknownPort a)) fun k h1 _ _ => ?_
      unfold PG.linkPorts
      rw [hport k h1, ha]
    | some x =>
      obtain ⟨na, da⟩ := x
      cases hb : g.port? b with
      | none =>
        refine fin (.error (.unknownPort a)) fun k h1 _ _ => ?_
        unfold PG.linkPorts
        rw [hport k h1, ha, hb]
      | some y =>
        obtain ⟨nb, db⟩ := y
        by_cases hd : da = db
        · refine fin (.error (.incompatibleDirections a b da)) fun k h1 _ _ => ?_
          unfold PG.linkPorts
          rw [hport k h1, ha, hb]
          simp only
          rw [if_pos hd]
        · cases hla : g.lk a with
          | some _ =>
            refine fin (.error (.alreadyLinked a)) fun k h1 h2 h3 => ?_
            unfold PG.linkPorts
            rw [hport k h1, ha, hb]
            simp only
            rw [if_neg hd, h2, hget a _ ha, hla]
          | none =>
            cases hlb : g.lk b with
            | some _ =>
              refine fin (.error (.alreadyLinked b)) fun k h1 h2 h3 => ?_
              unfold PG.linkPorts
              rw [hport k h1, ha, hb]
              simp only
              rw [if_neg hd, h2, hget a _ ha, hla]
              simp only
              rw [h3, hget b _ hb, hlb]
            | none =>
              refine ⟨.link (.ok (a, b)), [(a, some b), (b, some a)], 1, 0, ?_, fun k _ h1 h2 => ⟨?_, Nat.zero_le _⟩⟩
              · intro w hw
                simp only [List.mem_cons, List.not_mem_nil, or_false] at hw
                rcases hw with rfl | rfl
                · exact .inl rfl
                · exact .inr rfl
              · simp only [LinkCall.call]
                unfold PG.linkPorts
                rw [hport k h1, ha, hb]
                simp only
                rw [if_neg hd, h2 a (.inl rfl), h2 b (.inr rfl), hget a _ ha, hla, hget b _ hb, hlb]
                rfl
  | unlink p =>
    have fin : ∀ r, (∀ k : PG, k.portMeta = g.portMeta → k.portLink[p]? = g.portLink[p]? → k.unlinkPort p = some (r, k)) →
        ∃ r W up down, (∀ w ∈ W, (LinkCall.unlink p).touches g w.1) ∧
          ∀ k : PG, PG.Inv k → k.portMeta = g.portMeta → (∀ x, (LinkCall.unlink p).touches g x → k.portLink[x]? = g.portLink[x]?) →
            (LinkCall.unlink p).call k = some (r, after k W up down) ∧ down ≤ k.linkCount := by
      intro r h
      refine ⟨.unlink r, [], 0, 0, by simp, fun k _ h1 h2 => ⟨?_, Nat.zero_le _⟩⟩
      simp only [LinkCall.call]
      rw [h k h1 (h2 p (.inl rfl))]
      rfl
    cases hp : g.port? p with
    | none =>
      refine fin none fun k h1 _ => ?_
      unfold PG.unlinkPort
      rw [hport k h1, hp]
    | some x =>
      cases hl : g.lk p with
      | none =>
        refine fin none fun k h1 h2 => ?_
        unfold PG.unlinkPort
        rw [hport k h1, hp]
        simp only
        rw [h2, hget p _ hp, hl]
      | some q =>
        have ht : (LinkCall.unlink p).touches g q := .inr (by rw [portLink?_eq hI (by rw [hp]; rfl), hl])
        refine ⟨.unlink (some q), [(p, none), (q, none)], 0, 1, ?_, fun k hk h1 h2 => ?_⟩
        · intro w hw
          simp only [List.mem_cons, List.not_mem_nil, or_false] at hw
          rcases hw with rfl | rfl
          · exact .inl rfl
          · exact ht
        · have hkl : k.portLink[p]? = some (some q) := by rw [h2 p (.inl rfl), hget p _ hp, hl]
          have hkp : k.port? p = some x := by rw [hport k h1, hp]
          have hc := unlink_pos hk hkp (by unfold PG.lk; rw [hkl]; rfl)
          refine ⟨?_, hc.1⟩
          simp only [LinkCall.call]
          unfold PG.unlinkPort
          rw [hkp]
          simp only
          rw [hkl]
          simp only
          rw [if_pos ⟨hc.2, hc.1⟩]
          rfl

end Verif.Undo
