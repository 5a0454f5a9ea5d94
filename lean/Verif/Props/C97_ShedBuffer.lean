import Verif.Props.C85_BufferStack
import Verif.Props.C93_BufferSlots
import Verif.Props.C96_ShedRate

/-! # C97: load shed over a buffer

`ServiceBuilder::new().load_shed().buffer(bound)`: requests that find the buffer full are answered `Overloaded` instead of waiting. -/

set_option linter.unusedSimpArgs false

namespace Tower
open Act
variable {W Req Res Err : Type} {S : Service W Req Res Err} {P : S.φ → Prop}

/-! ## Specification -/

/-- `LoadShed<Buffer<Req, F>>`, one handle: `tower/src/builder/mod.rs:170-176, 220-222`. The buffer itself is in the world. -/
abbrev ShedBuf (S : Service W Req Res Err) (P : S.φ → Prop) : Service (BufOf S P × W) Req Res (ShedErr (BufErr Err)) := LoadShed (BufHandle S P)

/-- The slots of the buffer that are not to be had for the handle named `n`: those with requests in them, those that other handles have reserved, and those that are assigned to other handles which wait. -/
def Buf.others (x : Buf S) (n : Nat) : Nat :=
  x.queue.length + x.hs.countP (fun h => h.st = .ready ∧ h.name ≠ n) + x.sem.granted.countP (· ≠ n)

/-- What can become of one handle, whatever the rest of the buffer does between any two operations (each runs in any world), and however its user polls and calls it. -/
inductive ShedBufHist (S : Service W Req Res Err) (P : S.φ → Prop) : (ShedBuf S P).σ → Prop
  | new (n : Nat) : ShedBufHist S P ⟨⟨.idle, n⟩, false⟩
  | ready {s s' : (ShedBuf S P).σ} {z z' : BufOf S P × W} {p : Poll (Except (ShedErr (BufErr Err)) Unit)} : ShedBufHist S P s → ((ShedBuf S P).pollReady s).run z = .ok (p, s') z' → ShedBufHist S P s'
  | call {s s' : (ShedBuf S P).σ} {z z' : BufOf S P × W} {q : Req} {f : (ShedBuf S P).φ} : ShedBufHist S P s → ((ShedBuf S P).call s q).run z = .ok (f, s') z' → ShedBufHist S P s'
  | clone {s : (ShedBuf S P).σ} : ShedBufHist S P s → ShedBufHist S P ((ShedBuf S P).clone s)

/-! ## Proofs -/

theorem pollReady_ready_stays {h : BHandle} {p : Poll (Except (BufErr Err) Unit)} {s' : BufSt Nat} {z z' : BufOf S P × W} (hr : ((BufHandle S P).pollReady ⟨h.st, h.name⟩).run z = .ok (p, s') z') :
    (∀ u, p = .ready (.ok u) → s'.st = .ready) ∧ (h.st = .ready → p = .ready (.ok ())) := by
  obtain ⟨n, st⟩ := h
  have hres : ((⟨st, n⟩ : BufSt Nat).reserve (bufView S P)).run z = .ok (p, s') z' → ∀ u, p = .ready (.ok u) → s'.st = .ready := by
    intro hr u hp
    unfold BufSt.reserve at hr
    rw [run_bind_ok (run_lift _ _)] at hr
    dsimp only at hr
    rcases Buf.reserve_cases z.1.1 n with ⟨sem, hc⟩ | ⟨sem, hc⟩ | ⟨sem, hc⟩ <;> rw [hc .idle] at hr <;> cases hr
    · cases hp
    · rfl
    · cases hp
  cases st
  · exact ⟨hres hr, by intro h; cases h⟩
  · exact ⟨hres hr, by intro h; cases h⟩
  · cases hr; exact ⟨fun _ _ => rfl, fun _ => rfl⟩
  · cases hr; exact ⟨fun _ h => (by cases h), by intro h; cases h⟩

theorem ShedBufHist.flag {s : (ShedBuf S P).σ} (h : ShedBufHist S P s) : s.isReady = true → s.inner.st = .ready := by
  induction h with
  | new n => intro h; cases h
  | @ready s s' z z' p _ hr ih =>
    obtain ⟨q, i, h4, h5, h6⟩ := shed_ready_run hr
    obtain ⟨k1, k2⟩ := pollReady_ready_stays (h := ⟨s.inner.acq, s.inner.st⟩) h4
    intro h
    rw [h5]
    match q, h6, k1, k2 with
    | .pending, h6, _, _ => rw [h6] at h; cases h
    | .ready (.ok u), _, k1, _ => exact k1 u rfl
    | .ready (.error e), h6, _, k2 => exact absurd (k2 (ih (by rw [h6] at h; exact h))) (by intro h; cases h)
  | @call s s' z z' q f _ hr ih =>
    rcases shed_call_run hr with ⟨_, _, rfl, _⟩ | ⟨g, i, _, _, _, rfl⟩
    · exact ih
    · intro h; cases h
  | clone _ _ => intro h; cases h

theorem reserved_split {hs : List BHandle} (hn : (hs.map (·.name)).Nodup) {k : BHandle} (hk : k ∈ hs) :
    hs.countP (·.st = .ready) = hs.countP (fun h => h.st = .ready ∧ h.name ≠ k.name) + if k.st = .ready then 1 else 0 := by
  induction hs with
  | nil => cases hk
  | cons a t ih =>
    simp only [List.map_cons, List.nodup_cons] at hn
    simp only [List.countP_cons]
    rcases List.mem_cons.1 hk with rfl | hk'
    · have : t.countP (fun h => decide (h.st = .ready)) = t.countP (fun h => decide (h.st = .ready ∧ h.name ≠ k.name)) := by
        refine List.countP_congr fun h hh => ?_
        have : h.name ≠ k.name := fun hc => hn.1 (hc ▸ List.mem_map_of_mem hh)
        simp [this]
      rw [this]
      simp
    · have hne : a.name ≠ k.name := fun hc => hn.1 (hc ▸ List.mem_map_of_mem hk')
      rw [ih hn.2 hk']
      simp only [hne, ne_eq, not_false_eq_true, and_true]
      omega

theorem granted_split {l : List Nat} (hn : l.Nodup) (n : Nat) : l.length = l.countP (· ≠ n) + if n ∈ l then 1 else 0 := by
  induction l with
  | nil => rfl
  | cons a t ih =>
    simp only [List.nodup_cons] at hn
    have := ih hn.2
    by_cases h : a = n
    · subst h
      rw [if_neg hn.1] at this
      rw [List.length_cons, List.countP_cons, if_neg (by simp), if_pos (by simp)]
      omega
    · have h' : n ∈ a :: t ↔ n ∈ t := by rw [List.mem_cons, or_iff_right (fun h' : n = a => h h'.symm)]
      rw [List.length_cons, List.countP_cons, if_pos (by simpa using h)]
      simp only [h']
      omega

theorem loadShed_found_ready {V : Type} {T : Service V Req Res Err} {i i' : T.σ} {b : Bool} {w w' : V} (h : (T.pollReady i).run w = .ok (.ready (.ok ()), i') w') :
    ((LoadShed T).pollReady ⟨i, b⟩).run w = .ok (.ready (.ok ()), ⟨i', true⟩) w' := by
  simp only [LoadShed, run_bind, h, run_pure]

theorem loadShed_found_pending {V : Type} {T : Service V Req Res Err} {i i' : T.σ} {b : Bool} {w w' : V} (h : (T.pollReady i).run w = .ok (.pending, i') w') :
    ((LoadShed T).pollReady ⟨i, b⟩).run w = .ok (.ready (.ok ()), ⟨i', false⟩) w' := by
  simp only [LoadShed, run_bind, h, run_pure]

/-- when a handle finds a slot -/
theorem slot_iff {bound : Nat} {svc : S.σ} {tr : List (BEv S)} {x : Buf S} (h : BHist S bound svc tr x) {k : BHandle} (hk : k ∈ x.hs) :
    x.others k.name < bound ↔ k.st = .ready ∨ k.name ∈ x.sem.granted ∨ (x.sem.queue = [] ∧ 0 < x.sem.permits) := by
  have hI := h.inv.sem
  have hc := C19_conserved h
  have h1 := reserved_split hI.names hk
  have hnd := List.nodup_append.1 hI.nodup
  have h2 := granted_split hnd.1 k.name
  have hx : x.reserved = x.hs.countP (·.st = .ready) := rfl
  unfold Buf.others
  by_cases hr : k.st = .ready
  · simp only [hr, if_true] at h1
    simp only [hr, true_or, iff_true]
    omega
  · simp only [hr, if_false] at h1
    by_cases hg : k.name ∈ x.sem.granted
    · simp only [hg, if_true] at h2
      simp only [hg, true_or, or_true, iff_true]
      omega
    · simp only [hg, if_false] at h2
      simp only [hr, hg, false_or]
      constructor
      · intro hlt
        have hp : 0 < x.sem.permits := by omega
        refine ⟨?_, hp⟩
        by_contra hq
        have := hI.busy hq
        omega
      · rintro ⟨-, hp⟩; omega

/-! ## Theorems -/

/-- **C97, shed or accepted, exactly.** At any moment of any history of a buffer that is not closed, a handle with load shed is asked whether it is ready. It is. If the requests in the buffer and the slots that others hold are fewer than
`bound`, whatever request it is then given, at any time, goes into the buffer; otherwise it is shed: nothing changes, and the response says `Overloaded`. -/
theorem C97_exact {bound : Nat} {svc : S.σ} {tr : List (BEv S)} {x : BufOf S P} (h : BHist S bound svc tr x.1) {k : BHandle} (hk : k ∈ x.1.hs) (ho : x.1.closed = false) (b : Bool) (w : W) :
    ∃ s' y, ((ShedBuf S P).pollReady ⟨⟨k.st, k.name⟩, b⟩).run (x, w) = .ok (.ready (.ok ()), s') (y, w) ∧
      (x.1.others k.name < bound → ∀ q z v, ((ShedBuf S P).call s' q).run (z, v) = .ok (some (.rx (some z.1.calls)), ⟨⟨.idle, k.name⟩, false⟩) (z.push q, v)) ∧
      (bound ≤ x.1.others k.name → ∀ q z v, ((ShedBuf S P).call s' q).run (z, v) = .ok (none, s') (z, v) ∧
        ∀ u us, (ShedBuf S P).futOf.drive none (u :: us) = .done (.error .overloaded) u us) := by
  have hs := slot_iff h hk
  obtain ⟨l, r, hlr⟩ := List.append_of_mem hk
  have hst : k.st ≠ .closed := by
    intro hst
    have := h.inv.sem.hclosed k hk hst
    rw [ho] at this; cases this
  obtain ⟨p, st, y, h1, h2⟩ := C85_same_ready (P := P) hlr w
  have hp : (p = .ready (.ok ()) ∧ st = .ready ∧ x.1.others k.name < bound) ∨ (p = .pending ∧ ¬ x.1.others k.name < bound) := by
    have hres : k.st ≠ .ready → ((⟨k.st, k.name⟩ : BufSt Nat).reserve (bufView S P)).run (x, w) = .ok (p, ⟨st, k.name⟩) (y, w) →
        (p = .ready (.ok ()) ∧ st = .ready ∧ x.1.others k.name < bound) ∨ (p = .pending ∧ ¬ x.1.others k.name < bound) := by
      intro hne hr
      unfold BufSt.reserve at hr
      rw [run_bind_ok (run_lift _ _)] at hr
      dsimp only at hr
      have hv : x.1.reserve ⟨k.name, .idle⟩ = match x.1.sem.pollAcquire k.name with
          | (true, sem) => (.ready (.ok ()), ⟨k.name, .ready⟩, sem)
          | (false, sem) => (.pending, ⟨k.name, .acquiring⟩, sem) := by
        unfold Buf.reserve
        rw [if_neg (by simp [ho])]
        rfl
      rw [hs]
      rcases hq : x.1.sem.pollAcquire k.name with ⟨_ | _, sem⟩
      · rw [hv, hq] at hr
        cases hr
        right
        refine ⟨rfl, ?_⟩
        unfold Sem.pollAcquire at hq
        by_cases hg : k.name ∈ x.1.sem.granted
        · simp [hg] at hq
        · simp only [hne, hg, false_or]
          rintro ⟨hc1, hc2⟩
          simp [hg, hc1, hc2] at hq
      · rw [hv, hq] at hr
        cases hr
        left
        refine ⟨rfl, rfl, ?_⟩
        unfold Sem.pollAcquire at hq
        by_cases hg : k.name ∈ x.1.sem.granted
        · exact .inr (.inl hg)
        · simp only [hg, if_false] at hq
          right; right
          by_cases hc : k.name ∈ x.1.sem.queue
          · simp [hc] at hq
          · simp only [hc, if_false] at hq
            by_cases hd : x.1.sem.queue = [] ∧ 0 < x.1.sem.permits
            · exact hd
            · exfalso
              split at hq
              · rename_i hcc
                refine hd ⟨?_, by simpa using hcc⟩
                by_contra hqn
                have := h.inv.sem.busy hqn
                omega
              · cases hq
    cases hk' : k.st with
    | idle => refine hres (by rw [hk']; intro h; cases h) ?_; rw [hk'] at h1 ⊢; exact h1
    | acquiring => refine hres (by rw [hk']; intro h; cases h) ?_; rw [hk'] at h1 ⊢; exact h1
    | ready => rw [hk'] at h1; cases h1; exact .inl ⟨rfl, rfl, hs.2 (.inl hk')⟩
    | closed => exact absurd hk' hst
  rcases hp with ⟨rfl, rfl, hlt⟩ | ⟨rfl, hlt⟩
  · refine ⟨⟨⟨.ready, k.name⟩, true⟩, y, ?_, fun _ q z v => rfl, fun hc => absurd hlt (by omega)⟩
    exact loadShed_found_ready h1
  · refine ⟨⟨⟨st, k.name⟩, false⟩, y, ?_, fun hc => absurd hc hlt, fun _ q z v => ⟨rfl, fun _ _ => rfl⟩⟩
    exact loadShed_found_pending h1

/-- **C97, one handle.** The only handle of a buffer is shed only if there are `bound` requests in the buffer. -/
theorem C97_single {bound : Nat} {svc : S.σ} {tr : List (BEv S)} {x : BufOf S P} (h : BHist S bound svc tr x.1) {k : BHandle} (hk : x.1.hs = [k]) : x.1.others k.name = x.1.queue.length := by
  unfold Buf.others
  have hg : x.1.sem.granted.countP (· ≠ k.name) = 0 := by
    rw [List.countP_eq_zero]
    intro n hn
    obtain ⟨h', h1, h2, -⟩ := h.inv.sem.waiting n (by simp [hn])
    rw [hk] at h1
    simp only [List.mem_singleton] at h1
    subst h1
    simp [h2]
  rw [hk, hg]
  simp

/-- **C97, no panic, no wait.** However a handle is used, with or without `poll_ready`, whatever happens to the buffer meanwhile: `call` does not panic, and `poll_ready` is never pending. -/
theorem C97_no_panic {s : (ShedBuf S P).σ} (h : ShedBufHist S P s) (z : BufOf S P × W) :
    (∀ q m, ((ShedBuf S P).call s q).run z ≠ .panic m) ∧ ∀ p s' z', ((ShedBuf S P).pollReady s).run z = .ok (p, s') z' → p ≠ .pending := by
  refine ⟨fun q m hc => ?_, fun p s' z' hr => C09_never_pending _ _ _ _ _ _ hr⟩
  have hf := h.flag
  obtain ⟨⟨st, n⟩, b⟩ := s
  cases b with
  | false => cases hc
  | true =>
    have := hf rfl
    simp only at this
    subst this
    cases hc

/-- **C97, a closed buffer is not an overloaded one.** If the buffer is closed (the service has failed, or the worker is gone), a handle that holds no slot is told so: `poll_ready` returns the worker's error. -/
theorem C97_closed {x : BufOf S P} {k : BHandle} (hk : k.st ≠ .ready) (hc : x.1.closed = true) (b : Bool) (w : W) :
    ∃ s' y, ((ShedBuf S P).pollReady ⟨⟨k.st, k.name⟩, b⟩).run (x, w) = .ok (.ready (.error (.inner x.1.workerError)), s') (y, w) := by
  obtain ⟨n, st⟩ := k
  have hv : ∀ z : BufOf S P, z.1.err = x.1.err → (bufView S P (W := W)).workerError (z, w) = x.1.workerError := by
    intro z hz
    show (match z.1.err with | some e => BufErr.service e | none => BufErr.closed) = (match x.1.err with | some e => BufErr.service e | none => BufErr.closed)
    rw [hz]
  have hres : ∃ s' y, ((⟨st, n⟩ : BufSt Nat).reserve (bufView S P)).run (x, w) = .ok (.ready (.error x.1.workerError), s') (y, w) := by
    unfold BufSt.reserve
    rw [run_bind_ok (run_lift _ _)]
    dsimp only
    have h1 : (x.1.reserve ⟨n, .idle⟩).1 = .ready (.error x.1.workerError) := by unfold Buf.reserve; rw [if_pos hc]
    rw [h1]
    refine ⟨⟨.closed, n⟩, x.withSem (x.1.reserve ⟨n, .idle⟩).2.2, ?_⟩
    rw [← hv (x.withSem (x.1.reserve ⟨n, .idle⟩).2.2) rfl]
    rfl
  have h2 : ∃ s' y, ((BufHandle S P).pollReady ⟨st, n⟩).run (x, w) = .ok (.ready (.error x.1.workerError), s') (y, w) := by
    cases st with
    | idle => exact hres
    | acquiring => exact hres
    | ready => exact absurd rfl hk
    | closed => exact ⟨⟨.closed, n⟩, x, by rw [← hv x rfl]; rfl⟩
  obtain ⟨s', y, h3⟩ := h2
  obtain ⟨s'', h4⟩ := C09_error (BufHandle S P) ⟨⟨st, n⟩, b⟩ (x, w) (y, w) _ s' h3
  exact ⟨s'', y, h4⟩

/-! ## A handle that was shed keeps its place -/

namespace Demo97

def any : warm.φ → Prop := fun _ => True

/-- the buffer of the demonstration of C93, of bound 1: handle 0 had the slot, handle 1 asked and was told to wait; handle 0 called, and the worker has taken the request out of the buffer -/
theorem hist7 : ∃ tr, BHist warm 1 (0 : Nat) tr b7 := by
  have r := BRun.one (bsteps 0 _ rfl)
  have r := r.snoc (bsteps 1 _ rfl)
  have r := r.snoc (bsteps 2 _ rfl)
  have r := r.snoc (bsteps 3 _ rfl)
  have r := r.snoc (bsteps 4 _ rfl)
  have r := r.snoc (bsteps 5 _ rfl)
  have r := r.snoc (bsteps 6 _ rfl)
  exact ⟨_, r⟩

def y7 : BufOf warm any := ⟨b7, fun _ _ _ => trivial⟩

/-- The slot is assigned to handle 1. If that was shed, and its user has lost interest but keeps the clone, every request of handle 0 is shed, although the buffer is empty. -/
theorem idle_clone_blocks : y7.1.queue = [] ∧ y7.1.others 0 = 1 ∧ ∃ s' y, ((ShedBuf warm any).pollReady ⟨⟨.idle, (0 : Nat)⟩, false⟩).run (y7, ()) = .ok (.ready (.ok ()), s') (y, ()) ∧
    ∀ q z v, ((ShedBuf warm any).call s' q).run (z, v) = .ok (none, s') (z, v) := by
  obtain ⟨tr, h⟩ := hist7
  obtain ⟨s', y, h1, -, h3⟩ := C97_exact (x := y7) (P := any) h (k := ⟨0, .idle⟩) (by simp [y7]) rfl false ()
  exact ⟨rfl, rfl, s', y, h1, fun q z v => (h3 (Nat.le_refl 1) q z v).1⟩

/-- the worker of a new buffer is gone: the handle is told, nothing is shed -/
example : ∃ s' y, ((ShedBuf warm any).pollReady ⟨⟨.idle, (0 : Nat)⟩, false⟩).run (⟨{ b0 with closed := true, pc := .dead }, fun _ _ _ => trivial⟩, ()) = .ok (.ready (.error (.inner .closed)), s') (y, ()) :=
  C97_closed (x := ⟨{ b0 with closed := true, pc := .dead }, fun _ _ _ => trivial⟩) (k := ⟨0, .idle⟩) (by intro h; cases h) rfl false ()

/-- handle 1, asked again, may send -/
example : ∃ s' y, ((ShedBuf warm any).pollReady ⟨⟨.acquiring, (1 : Nat)⟩, false⟩).run (y7, ()) = .ok (.ready (.ok ()), s') (y, ()) ∧
    ∀ q z v, ((ShedBuf warm any).call s' q).run (z, v) = .ok (some (.rx (some z.1.calls)), ⟨⟨.idle, (1 : Nat)⟩, false⟩) (z.push q, v) := by
  obtain ⟨tr, h⟩ := hist7
  obtain ⟨s', y, h1, h2, -⟩ := C97_exact (x := y7) (P := any) h (k := ⟨1, .acquiring⟩) (by simp [y7]) rfl false ()
  exact ⟨s', y, h1, h2 (by decide)⟩

end Demo97

end Tower
