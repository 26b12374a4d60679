import Verif.Proof.IrMeasure

/-! The number of operations that a pattern creates. -/

namespace Verif.Ir

/-- A match creates at most eight operations. -/
def Rule.Small (r : Rule) : Prop := ∀ c n t, r.apply c n = some t → ∀ k, (t.emit k).2.length ≤ 8

theorem ruleSelect_small (b : Bool) : (ruleSelect b).Small := by
  intro c n t h k
  unfold ruleSelect at h
  simp only at h
  repeat' split at h
  all_goals first
    | (cases h; done)
    | (cases h; simp [Rhs.emit, Rhs.emitL, Rhs.constF, prepared]; done)
    | (cases h; cases b <;> simp [Rhs.emit, Rhs.emitL])

theorem ruleSign_small (b : Bool) : (ruleSign b).Small := by
  intro c n t h k
  unfold ruleSign at h
  simp only at h
  repeat' split at h
  all_goals first
    | (cases h; done)
    | (cases h; simp [Rhs.emit, Rhs.emitL, Rhs.constF, prepared]; done)
    | (cases h; cases b <;> simp [Rhs.emit, Rhs.emitL])

theorem rulePrepare_small (b : Bool) : (rulePrepare b).Small := by
  intro c n t h k
  unfold rulePrepare at h
  simp only at h
  repeat' split at h
  all_goals first
    | (cases h; done)
    | (cases h; simp [Rhs.emit, Rhs.emitL, Rhs.constF, prepared]; done)
    | (cases h; cases b <;> simp [Rhs.emit, Rhs.emitL])

theorem rulePadConv_small : rulePadConv.Small := by
  intro c n t h k
  unfold rulePadConv at h
  simp only at h
  repeat' split at h
  all_goals first
    | (cases h; done)
    | (cases h; simp [Rhs.emit, Rhs.emitL, Rhs.constF, prepared]; done)

theorem rulePass_small : rulePass.Small := by
  intro c n t h k
  unfold rulePass at h
  simp only at h
  repeat' split at h
  all_goals first
    | (cases h; done)
    | (cases h; simp [Rhs.emit, Rhs.emitL, Rhs.constF, prepared]; done)

theorem ruleIdentity_small : ruleIdentity.Small := by
  intro c n t h k
  unfold ruleIdentity at h
  simp only at h
  repeat' split at h
  all_goals first
    | (cases h; done)
    | (cases h; simp [Rhs.emit, Rhs.emitL, Rhs.constF, prepared]; done)

theorem ruleGeZero_small : ruleGeZero.Small := by
  intro c n t h k
  unfold ruleGeZero at h
  simp only at h
  repeat' split at h
  all_goals first
    | (cases h; done)
    | (cases h; simp [Rhs.emit, Rhs.emitL, Rhs.constF, prepared]; done)

theorem ruleGe_small : ruleGe.Small := by
  intro c n t h k
  unfold ruleGe at h
  simp only at h
  repeat' split at h
  all_goals first
    | (cases h; done)
    | (cases h; simp [Rhs.emit, Rhs.emitL, Rhs.constF, prepared]; done)

theorem ruleLe_small : ruleLe.Small := by
  intro c n t h k
  unfold ruleLe at h
  simp only at h
  repeat' split at h
  all_goals first
    | (cases h; done)
    | (cases h; simp [Rhs.emit, Rhs.emitL, Rhs.constF, prepared]; done)

theorem ruleFuseAddSub_small (b : Bool) : (ruleFuseAddSub b).Small := by
  intro c n t h k
  unfold ruleFuseAddSub at h
  simp only at h
  repeat' split at h
  all_goals first
    | (cases h; done)
    | (cases h; simp [Rhs.emit, Rhs.emitL, Rhs.constF, prepared]; done)
    | (cases h; cases b <;> simp [Rhs.emit, Rhs.emitL])

theorem ruleFuseMulDiv_small (b : Bool) : (ruleFuseMulDiv b).Small := by
  intro c n t h k
  unfold ruleFuseMulDiv at h
  simp only at h
  repeat' split at h
  all_goals first
    | (cases h; done)
    | (cases h; simp [Rhs.emit, Rhs.emitL, Rhs.constF, prepared]; done)
    | (cases h; cases b <;> simp [Rhs.emit, Rhs.emitL])

theorem ruleFuseAct_small (b : Act) : (ruleFuseAct b).Small := by
  intro c n t h k
  unfold ruleFuseAct at h
  simp only at h
  repeat' split at h
  all_goals first
    | (cases h; done)
    | (cases h; simp [Rhs.emit, Rhs.emitL, Rhs.constF, prepared]; done)
    | (cases h; cases b <;> simp [Rhs.emit, Rhs.emitL])

theorem ruleBitpackActivations_small (b : Bool) : (ruleBitpackActivations b).Small := by
  intro c n t h k
  unfold ruleBitpackActivations at h
  simp only at h
  repeat' split at h
  all_goals first
    | (cases h; done)
    | (cases h; simp [Rhs.emit, Rhs.emitL, Rhs.constF, prepared]; done)
    | (cases h; cases b <;> simp [Rhs.emit, Rhs.emitL])

theorem ruleMaxPool_small : ruleMaxPool.Small := by
  intro c n t h k
  unfold ruleMaxPool at h
  simp only at h
  repeat' split at h
  all_goals first
    | (cases h; done)
    | (cases h; simp [Rhs.emit, Rhs.emitL, Rhs.constF, prepared]; done)

theorem ruleBitpackWeights_small : ruleBitpackWeights.Small := by
  intro c n t h k
  unfold ruleBitpackWeights at h
  simp only at h
  repeat' split at h
  all_goals first
    | (cases h; done)
    | (cases h; simp [Rhs.emit, Rhs.emitL, Rhs.constF, prepared]; done)

theorem ruleStripQdq_small : ruleStripQdq.Small := by
  intro c n t h k
  unfold ruleStripQdq at h
  simp only at h
  repeat' split at h
  all_goals first
    | (cases h; done)
    | (cases h; simp [Rhs.emit, Rhs.emitL, Rhs.constF, prepared]; done)

theorem ruleFuseQuantize_small : ruleFuseQuantize.Small := by
  intro c n t h k
  unfold ruleFuseQuantize at h
  simp only at h
  repeat' split at h
  all_goals first
    | (cases h; done)
    | (cases h; simp [Rhs.emit, Rhs.emitL, Rhs.constF, prepared]; done)

theorem ruleDequantInt8_small : ruleDequantInt8.Small := by
  intro c n t h k
  unfold ruleDequantInt8 at h
  simp only at h
  repeat' split at h
  all_goals first
    | (cases h; done)
    | (cases h; simp [Rhs.emit, Rhs.emitL, Rhs.constF, prepared]; done)

theorem ruleQuantInt8_small : ruleQuantInt8.Small := by
  intro c n t h k
  unfold ruleQuantInt8 at h
  simp only at h
  repeat' split at h
  all_goals first
    | (cases h; done)
    | (cases h; simp [Rhs.emit, Rhs.emitL, Rhs.constF, prepared]; done)

theorem ruleFold_small : ruleFold.Small := by
  intro c n t h k
  obtain ⟨_, _, _, _, _, _, rfl⟩ := ruleFold_inv h
  simp [Rhs.emit, Rhs.emitL]

theorem ruleBroadcast_small : ruleBroadcast.Small := by
  intro c n t h k
  unfold ruleBroadcast at h
  simp only at h
  repeat' split at h
  all_goals first
    | (cases h; done)
    | (cases h; simp [Rhs.emit, Rhs.emitL, Rhs.constF, prepared]; done)

theorem ruleFusePad_small (b d : Bool) : (ruleFusePad b d).Small := by
  intro c n t h k
  unfold ruleFusePad at h
  simp only at h
  repeat' split at h
  all_goals first
    | (cases h; done)
    | (cases h; simp [Rhs.emit, Rhs.emitL, Rhs.constF, prepared]; done)
    | (cases h; cases b <;> simp [Rhs.emit, Rhs.emitL])

/-! ### The potential -/

theorem opW_le (o : Op) (l : List (Option Val)) : opW o l ≤ 6 := by
  unfold opW
  split <;> omega

theorem weight_le_length (g : Graph) : g.weight ≤ 6 * g.nodes.length := by
  unfold Graph.weight
  generalize g.nodes = l
  have : ∀ l : List Node, (l.map (contrib g)).sum ≤ 6 * l.length := by
    intro l
    induction l with
    | nil => simp
    | cons a l ih =>
      have : contrib g a ≤ 6 := by
        unfold contrib nodeW
        split
        · exact opW_le _ _
        · omega
      simp only [List.map_cons, List.sum_cons, List.length_cons]
      omega
  exact this l

/-- The weight and the number of operations together. -/
def Graph.pot (g : Graph) : Nat := 8 * g.weight + g.nodes.length

theorem pot_le (g : Graph) : g.pot ≤ 49 * g.nodes.length := by
  have := weight_le_length g
  unfold Graph.pot
  omega

theorem replace_length {g : Graph} {pre post : List Node} {n : Node} {t : Rhs} (he : g.nodes = pre ++ n :: post) :
    (g.replace pre post n.name t).nodes.length + 1 = g.nodes.length + (t.emit g.bound).2.length := by
  rw [he]
  simp only [Graph.replace, List.length_append, List.length_map, List.length_cons]
  omega

theorem step_pot {rules : List Rule} {safe : List Val → Prop} (hl : ∀ r ∈ rules, r.Local) (hd : ∀ r ∈ rules, r.Dec)
    (hs : ∀ r ∈ rules, r.Small) {g g' : Graph} (hg : g.Ssa) (h : Step rules safe g g') : g'.pot < g.pot := by
  cases h with
  | @rewrite pre post n t r hr he hu ha _ =>
    have h1 := dec_weight hg he hu (hl r hr) (hd r hr) ha
    have h3 := hs r hr _ _ _ ha g.bound
    have h2 := replace_length (t := t) he
    unfold Graph.pot
    omega
  | @erase pre post n he hu =>
    have h1 := erase_weight hg he hu
    have h2 : g.nodes.length = pre.length + (post.length + 1) := by rw [he]; simp
    unfold Graph.pot
    simp only [List.length_append]
    omega
  | @cse pre post n m he hm hq =>
    have h1 := cse_weight hg he hm hq
    have h2 := replace_length (t := .var m.name) he
    simp only [Rhs.emit, List.length_nil, Nat.add_zero] at h2
    unfold Graph.pot
    omega

theorem depth_le (g : Graph) : g.depth ≤ g.nodes.length * g.nodes.length := by
  have hc : ∀ l : List Node, cntT l ≤ l.length := by
    intro l
    induction l with
    | nil => simp [cntT]
    | cons a l ih =>
      have : isT a ≤ 1 := by unfold isT; split <;> omega
      simp only [cntT, List.map_cons, List.sum_cons, List.length_cons] at ih ⊢
      omega
  have hm : ∀ n, mpos g.nodes n ≤ g.nodes.length := by
    intro n
    unfold mpos
    split
    · exact le_trans (posIn_le_cnt _ _) (hc _)
    · omega
  unfold Graph.depth
  have : ∀ l : List Node, (l.map (mpos g.nodes)).sum ≤ l.length * g.nodes.length := by
    intro l
    induction l with
    | nil => simp
    | cons a l ih =>
      have := hm a
      simp only [List.map_cons, List.sum_cons, List.length_cons, Nat.add_mul, Nat.one_mul]
      omega
  exact this _

/-- The potential for all patterns, given a bound of the depth. -/
def Graph.pot2 (B : Nat) (g : Graph) : Nat := g.pot * (B + 1) + g.depth

theorem strip_pot {g : Graph} {pre post : List Node} {n : Node} {t : Rhs} (hg : g.Ssa) (he : g.nodes = pre ++ n :: post)
    (hu : 0 < g.uses n.name) (ha : ruleStripQdq.apply ⟨lookIn pre, g.uses⟩ n = some t) :
    (g.replace pre post n.name t).pot ≤ g.pot ∧ (g.replace pre post n.name t).depth < g.depth := by
  obtain ⟨h1, h2⟩ := strip_measure hg he hu ha
  refine ⟨?_, h2⟩
  have h3 := replace_length (t := t) he
  obtain ⟨nm, a, x, f, m, b, tt, ty, mn, m1, mty, bn, b1, bty, m1n, s1, z1, m0, m1ty, b1n, s2, z2, b0, b1ty,
    rfl, _, hm, hb, hm1, hb1, rfl⟩ := ruleStripQdq_inv ha
  simp only [Rhs.emit, Rhs.emitL, List.length_append, List.length_nil, List.length_cons] at h3
  unfold Graph.pot
  simp only at h1 h3 ⊢
  omega

theorem step_pot2 {rules : List Rule} {safe : List Val → Prop} (hl : ∀ r ∈ rules, r.Local) (hd : ∀ r ∈ rules, r.DecOr)
    (hs : ∀ r ∈ rules, r.Small) {g g' : Graph} (hg : g.Ssa) (h : Step rules safe g g') {B : Nat} (hB : g.pot * g.pot ≤ B) :
    g'.pot ≤ g.pot ∧ g'.pot2 B < g.pot2 B := by
  have key : g'.pot < g.pot ∨ (g'.pot ≤ g.pot ∧ g'.depth < g.depth) := by
    cases h with
    | rewrite r hr he hu ha hsafe =>
      rcases hd r hr with h | rfl
      · refine Or.inl (step_pot (rules := [r]) (safe := safe) ?_ ?_ ?_ hg (.rewrite r (by simp) he hu ha hsafe)) <;>
          intro r' hr' <;> rw [List.mem_singleton] at hr' <;> subst hr'
        · exact hl _ hr
        · exact h
        · exact hs _ hr
      · exact Or.inr (strip_pot hg he hu ha)
    | erase he hu => exact Or.inl (step_pot (rules := []) (safe := safe) (by simp) (by simp) (by simp) hg (.erase he hu))
    | cse he hm hq => exact Or.inl (step_pot (rules := []) (safe := safe) (by simp) (by simp) (by simp) hg (.cse he hm hq))
  unfold Graph.pot2
  rcases key with h1 | ⟨h1, h2⟩
  · refine ⟨Nat.le_of_lt h1, ?_⟩
    have h3 : g'.depth ≤ B := by
      have h4 := depth_le g'
      have h5 : g'.nodes.length ≤ g.pot := by
        have : g'.nodes.length ≤ g'.pot := by unfold Graph.pot; omega
        omega
      have := Nat.mul_le_mul h5 h5
      omega
    have h4 := Nat.mul_le_mul_right (B + 1) (show g'.pot + 1 ≤ g.pot from h1)
    rw [Nat.add_mul, Nat.one_mul] at h4
    omega
  · refine ⟨h1, ?_⟩
    have := Nat.mul_le_mul_right (B + 1) h1
    omega

end Verif.Ir
