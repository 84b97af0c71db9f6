import Verif.Spec.DriftingCircuits
import Verif.Proofs.DriftingErrors
import Verif.Proofs.Circuits

/-!
# A list of controls on hardware whose errors change: auxiliary results
-/

namespace OpenControls

open Spec Set
open scoped Matrix.Norms.L2Operator

theorem DrivesList.prefixed {gs : List (Segment ℝ)} (hs : List (Segment ℝ)) {t : ℝ} {v : ℝ × ℝ × ℝ} (h : DrivesList gs t v) :
    DrivesList (gs ++ hs) t v := by
  obtain ⟨k, g, h1, h2, h3, h4⟩ := h
  have hk : k < gs.length := by
    by_contra hk
    rw [List.getElem?_eq_none (by omega)] at h1
    cases h1
  refine ⟨k, g, ?_, h2, ?_, ?_⟩
  · rw [List.getElem?_append_left hk, h1]
  · rwa [List.take_append_of_le_length hk.le]
  · rwa [List.take_append_of_le_length (by omega)]

theorem DrivesList.suffixed {gs hs : List (Segment ℝ)} {t : ℝ} {v : ℝ × ℝ × ℝ} (h : DrivesList hs (t - total gs) v) :
    DrivesList (gs ++ hs) t v := by
  induction gs generalizing t with
  | nil => simpa [total] using h
  | cons g gs ih =>
    refine DrivesList.tail (ih ?_)
    rwa [sub_sub, ← total_cons]

theorem Obeys.split {G : ℝ → ℝ × ℝ × ℝ → M2} {U : ℝ → M2} {a : ℝ} {gs hs : List (Segment ℝ)} (h : Obeys G U a (gs ++ hs)) :
    Obeys G U a gs ∧ Obeys G U (a + total gs) hs := by
  refine ⟨fun t v hv => h t v (hv.prefixed hs), fun t v hv => h t v (DrivesList.suffixed ?_)⟩
  rwa [sub_sub]

theorem Obeys.later {G : ℝ → ℝ × ℝ × ℝ → M2} {U : ℝ → M2} {s : ℝ} {gs : List (Segment ℝ)} (h : Obeys G U s gs) :
    Obeys (fun t v => G (s + t) v) (fun t => U (s + t)) 0 gs := by
  intro t v hv
  have h1 := h (s + t) v (by rw [add_sub_cancel_left]; rwa [sub_zero] at hv)
  have h2 : HasDerivWithinAt (fun x : ℝ => s + x) 1 (Ici t) t := (hasDerivWithinAt_id t _).const_add s
  have h3 := HasDerivWithinAt.scomp t h1 h2 fun x hx => by
    simp only [mem_Ici] at hx ⊢
    linarith
  rwa [one_smul] at h3

/-- a control that is played from the time `s` on does what it does if it is played alone -/
theorem obeys_turn {G : ℝ → ℝ × ℝ × ℝ → M2} (hs : ∀ t v, star (G t v) = -G t v) {gs : List (Segment ℝ)}
    (hg : ∀ g ∈ gs, 0 < g.duration) {s : ℝ} {U V : ℝ → M2} (hU : ContinuousOn U (Icc s (s + total gs))) (fU : Obeys G U s gs)
    (hV : ContinuousOn V (Icc 0 (total gs))) (fV : Obeys (fun t v => G (s + t) v) V 0 gs) (v0 : V 0 = 1) :
    U (s + total gs) = V (total gs) * U s := by
  have ht := total_nonneg hg
  have hU' : ContinuousOn (fun t => U (s + t)) (Icc 0 (total gs)) := by
    refine hU.comp (by fun_prop) fun t h => ?_
    exact ⟨by linarith [h.1], by linarith [h.2]⟩
  have a1 := obeys_unique (fun t v => hs (s + t) v) hU' hV fU.later fV _ ⟨ht, le_rfl⟩
  have a2 := obeys_unique (fun t v => hs (s + t) v) hV hV fV fV _ ⟨ht, le_rfl⟩
  simp only [v0, star_one, one_mul, add_zero] at a1 a2
  rw [← a1, ← mul_assoc, mul_eq_one_comm.mp a2, one_mul]

/-- the segments of a list of controls -/
theorem chained_segments (cs : List (DrivenControl ℝ)) (h : ∀ c ∈ cs, c.Constructed) (name : Option String) :
    ∃ gss, List.Forall₂ (fun c gs => c = ofSegments gs c.name ∧ ∀ g ∈ gs, 0 < g.duration) cs gss ∧
      chained cs name = ofSegments gss.flatten name := by
  induction cs with
  | nil => exact ⟨[], .nil, rfl⟩
  | cons c cs ih =>
    obtain ⟨gss, h1, h2⟩ := ih fun c hc => h c (by simp [hc])
    obtain ⟨gs, e, hg⟩ := constructed_segments (h c (by simp))
    refine ⟨gs :: gss, .cons ⟨e, hg⟩ h1, ?_⟩
    simp only [chained, ofSegments, DrivenControl.mk.injEq, and_true] at h2 ⊢
    obtain ⟨a1, a2, a3, a4⟩ := h2
    simp only [List.flatMap_cons, List.flatten_cons, List.map_append]
    rw [a1, a2, a3, a4, e]
    exact ⟨rfl, rfl, rfl, rfl⟩

theorem obeys_turns {e : DriftingErrors} {U : ℝ → M2} {cs : List (DrivenControl ℝ)} {gss : List (List (Segment ℝ))}
    (h : List.Forall₂ (fun c gs => c = ofSegments gs c.name ∧ ∀ g ∈ gs, 0 < g.duration) cs gss) :
    ∀ (s : ℝ) (Us : List M2), PlayedInTurn e s cs Us → ContinuousOn U (Icc s (s + total gss.flatten)) →
      Obeys (fun t v => (-Complex.I) • e.hamiltonian t v) U s gss.flatten →
      U (s + total gss.flatten) = inTurn Us * U s := by
  induction h with
  | nil =>
    intro s Us hp _ _
    cases hp
    simp [total, inTurn]
  | @cons c gs cs gss hc hcs ih =>
    intro s Us hp hU hO
    cases hp with
    | @cons _ _ _ V Us hV hp =>
      obtain ⟨eq, hg⟩ := hc
      have hsum : c.durations.sum = total gs := by rw [eq]; rfl
      rw [hsum] at hp ⊢
      rw [eq] at hV
      obtain ⟨v0, cV, fV⟩ := errant_obeys.mp hV
      rw [List.flatten_cons] at hU hO ⊢
      obtain ⟨o1, o2⟩ := hO.split
      have hall : ∀ g ∈ gss.flatten, 0 < g.duration := by
        intro g hg'
        obtain ⟨l, hl, hgl⟩ := List.mem_flatten.mp hg'
        obtain ⟨i, hi, rfl⟩ := List.getElem_of_mem hl
        have hi' : i < cs.length := by rw [hcs.length_eq]; exact hi
        exact (hcs.get hi' hi).2 g hgl
      have t1 := total_nonneg hg
      have t2 := total_nonneg hall
      have ht : s + total gs + total gss.flatten = s + total (gs ++ gss.flatten) := by rw [total_append]; ring
      have k1 := obeys_turn (skew_errors e) hg (hU.mono (Icc_subset_Icc le_rfl (by rw [← ht]; linarith))) o1 cV fV v0
      have k2 := ih (s + total gs) Us hp (hU.mono (Icc_subset_Icc (by linarith) ht.le)) o2
      rw [← ht, k2, k1, inTurn, mul_assoc]

/-- the parts of an evolution are evolutions of the single controls -/
theorem obeys_played {e : DriftingErrors} {U : ℝ → M2} {cs : List (DrivenControl ℝ)} {gss : List (List (Segment ℝ))}
    (h : List.Forall₂ (fun c gs => c = ofSegments gs c.name ∧ ∀ g ∈ gs, 0 < g.duration) cs gss) :
    ∀ s : ℝ, star (U s) * U s = 1 → ContinuousOn U (Icc s (s + total gss.flatten)) →
      Obeys (fun t v => (-Complex.I) • e.hamiltonian t v) U s gss.flatten → ∃ Us, PlayedInTurn e s cs Us := by
  induction h with
  | nil => exact fun s _ _ _ => ⟨[], .nil s⟩
  | @cons c gs cs gss hc hcs ih =>
    intro s u0 hU hO
    obtain ⟨eq, hg⟩ := hc
    rw [List.flatten_cons] at hU hO
    obtain ⟨o1, o2⟩ := hO.split
    have hall : ∀ g ∈ gss.flatten, 0 < g.duration := by
      intro g hg'
      obtain ⟨l, hl, hgl⟩ := List.mem_flatten.mp hg'
      obtain ⟨i, hi, rfl⟩ := List.getElem_of_mem hl
      have hi' : i < cs.length := by rw [hcs.length_eq]; exact hi
      exact (hcs.get hi' hi).2 g hgl
    have t1 := total_nonneg hg
    have t2 := total_nonneg hall
    have ht : s + total gs + total gss.flatten = s + total (gs ++ gss.flatten) := by rw [total_append]; ring
    have c1 : ContinuousOn (fun t => U (s + t)) (Icc 0 (total gs)) := by
      refine hU.comp (by fun_prop) fun t h => ?_
      exact ⟨by linarith [h.1], by linarith [h.2]⟩
    have u1 := obeys_unique (fun t v => skew_errors e (s + t) v) c1 c1 o1.later o1.later _ ⟨t1, le_rfl⟩
    simp only [add_zero] at u1
    obtain ⟨Us, hp⟩ := ih (s + total gs) (by rw [u1, u0]) (hU.mono (Icc_subset_Icc (by linarith) ht.le)) o2
    have hsum : c.durations.sum = total gs := by rw [eq]; rfl
    rw [← hsum] at hp
    refine ⟨_, .cons (V := fun t => U (s + t) * star (U s)) ?_ hp⟩
    rw [eq, errant_obeys]
    refine ⟨by simpa using mul_eq_one_comm.mp u0, c1.mul continuousOn_const, fun t v hv => ?_⟩
    have := (o1.later t v hv).mul_const (star (U s))
    rwa [mul_assoc] at this

theorem playedInTurn_norm {e : DriftingErrors} {s : ℝ} {cs : List (DrivenControl ℝ)} {Us : List M2} (h : ∀ c ∈ cs, c.Constructed)
    (hp : PlayedInTurn e s cs Us) : ∀ U ∈ Us, ‖U‖ ≤ 1 := by
  induction hp with
  | nil s => simp
  | @cons s c cs V Us hV hp ih =>
    intro U hU
    rcases List.mem_cons.mp hU with rfl | hU
    · obtain ⟨gs, eq, hg⟩ := constructed_segments (h c (by simp))
      rw [eq] at hV ⊢
      obtain ⟨v0, cV, fV⟩ := errant_obeys.mp hV
      have := obeys_unique (skew_errors (e.later s)) cV cV fV fV _ ⟨total_nonneg hg, le_rfl⟩
      rw [v0, star_one, one_mul] at this
      exact norm_of_isometry this
    · exact ih (fun c hc => h c (by simp [hc])) U hU

theorem playedInTurn_length {e : DriftingErrors} {s : ℝ} {cs : List (DrivenControl ℝ)} {Us : List M2}
    (hp : PlayedInTurn e s cs Us) : Us.length = cs.length := by
  induction hp with
  | nil s => rfl
  | cons _ _ ih => simp [ih]

end OpenControls
