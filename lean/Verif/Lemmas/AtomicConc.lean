import Verif.Model.AtomicConc
import Verif.Lemmas.Machine

/-! Objects with atomic methods are linearizable. -/

namespace GoMetrics
variable {S Op R : Type}

def AtomL.abs : AtomL Op R → TS Op R
  | .idle => .idle
  | .run o => .pend o
  | .done o r => .done o r

theorem atom_run {eff : S → Op → S × R} {s0 : S} {sched s ls tr} (h : (atomMachine eff).run s0 (fun _ => .idle) sched = some (s, ls, tr)) :
    Wf allIdle tr (fun t => (ls t).abs) ∧ LegalRun (fun s o r s' => eff s o = (s', r)) s0 (linSeq tr) s := by
  constructor
  · have := (atomMachine eff).wf (l0 := fun _ => AtomL.idle) some AtomL.abs (fun _ => True) (fun _ => trivial)
      (fun t i s l s' l' es _ hst => by
        change atomStep eff t i s l = some (s', l', es) at hst
        unfold atomStep at hst
        split at hst <;> cases hst
        · exact ⟨trivial, .inv⟩
        · exact ⟨trivial, .lin⟩
        · exact ⟨trivial, .ret⟩) sched s ls tr h
    rw [List.filterMap_some] at this
    exact this
  · refine (atomMachine eff).induct (fun s _ tr => LegalRun (fun s o r s' => eff s o = (s', r)) s0 (linSeq tr) s) .nil ?_ sched s ls tr h
    intro s ls tr t i s' l' es hr hst
    change atomStep eff t i s (ls t) = some (s', l', es) at hst
    unfold atomStep at hst
    split at hst <;> cases hst
    · simpa [linSeq] using hr
    · rw [linSeq_append]
      exact hr.append (.cons rfl .nil)
    · simpa [linSeq] using hr

theorem atom_linearizable {eff : S → Op → S × R} {s0 : S} {sched s ls tr} (h : (atomMachine eff).run s0 (fun _ => .idle) sched = some (s, ls, tr)) :
    Linearizable (fun s o r s' => eff s o = (s', r)) s0 (hist tr) :=
  ⟨tr, _, s, rfl, (atom_run h).1, (atom_run h).2⟩

end GoMetrics
