import Verif.Proofs.CoverRun
import Verif.Proofs.Handler
import Verif.Proofs.Ops
import Verif.Proofs.Fail

/-
What the flags of coverage entries mean.
-/

namespace Flow

open Spec

variable {env : Env}

theorem Eng.handling_troubled {e : Eng} (h : Reachable env e) {i : Nat} {I : Inst} (hI : e.insts[i]? = some I)
    (hh : I.handling = true) : Troubled e i := by
  have hP : Eng.Stable (fun I => I.handling = true → .ehStart ∈ I.trace ∨ ∃ x, .flow .failed x ∈ I.posted) := by
    refine ⟨?_, ?_, ?_, ?_, ?_, ?_, ?_, ?_⟩
    · intro I I' h hp hh
      rw [h.handling] at hh
      refine (hp hh).imp (fun hm => ?_) fun ⟨x, hm⟩ => ⟨x, ?_⟩
      · have h1 : Ev.ehStart ∈ I.trace.filter isLoud := List.mem_filter.mpr ⟨hm, rfl⟩
        rw [← h.loud] at h1
        exact (List.mem_filter.mp h1).1
      · have h1 : Post.flow .failed x ∈ I.posted.filter Post.isFlow := List.mem_filter.mpr ⟨hm, rfl⟩
        rw [← h.flows] at h1
        exact (List.mem_filter.mp h1).1
    · intro o I I' h hp hh
      rw [h.handling] at hh
      obtain ⟨evs, h1, _⟩ := h.trace
      rw [h1, h.posted]
      exact (hp hh).imp (List.mem_append_right _) (fun h => h)
    · intro d uri k h a hh; cases hh
    · intro I hp hh; exact (hp hh).imp (List.mem_cons_of_mem _) (fun ⟨x, hx⟩ => ⟨x, List.mem_cons_of_mem _ hx⟩)
    · intro I hp hh; exact .inr ⟨_, List.mem_cons_self ..⟩
    · intro I _ _ _ _; exact .inl (List.mem_cons_self ..)
    · intro I _ _ _ _; exact .inr ⟨_, List.mem_cons_self ..⟩
    · intro I err hp _; exact hp
  refine ⟨I, hI, (hP.reachable h i I hI hh).imp (fun h => h) fun ⟨x, hx⟩ => ?_⟩
  have h1 : Post.ev (.flow .failed x) ∈ I.posted.map Post.ev := List.mem_map.mpr ⟨_, hx, rfl⟩
  rw [((Eng.engOK_reachable h).ok i I hI).mirror.posts] at h1
  exact (List.mem_filter.mp h1).1

theorem Troubled.ext {e e' : Eng} {i : Nat} (h : Eng.EExt e e') (ht : Troubled e i) : Troubled e' i := by
  obtain ⟨I, hI, ht⟩ := ht
  obtain ⟨I', hI', hx⟩ := h i I hI
  obtain ⟨evs, hev⟩ := hx.trace
  refine ⟨I', hI', ?_⟩
  rw [hev]
  exact ht.imp (List.mem_append_right _) (List.mem_append_right _)

theorem FlagMeans.ext {e e' : Eng} {c : Cov} (h : Eng.EExt e e') (hc : FlagMeans e c) : FlagMeans e' c := by
  cases c with
  | activity j f t b =>
    cases b with
    | true =>
      intro hj
      obtain ⟨I, hI, ht⟩ := hc hj
      obtain ⟨I', hI', hx⟩ := h _ I hI
      exact ⟨I', hI', by rw [hx.defn]; exact ht⟩
    | false => exact Troubled.ext h hc
  | link j f l b =>
    cases b with
    | true =>
      obtain ⟨I, hI, ht⟩ := hc
      obtain ⟨I', hI', hx⟩ := h _ I hI
      exact ⟨I', hI', by rw [hx.defn]; exact ht⟩
    | false => exact Troubled.ext h hc
  | subflow _ _ _ _ => trivial

theorem Eng.step_flags {e : Eng} (hr : Reachable env e) : ∀ c ∈ covStep env e, FlagMeans (e.step env) c := by
  intro c hc
  cases hn : next env e with
  | none => rw [covStep_idle hn] at hc; cases hc
  | some w =>
    cases ho : outcome env (afterPop env e w) w.inst w.obj with
    | none => rw [covStep_none hn ho] at hc; cases hc
    | some x =>
      obtain ⟨e', r⟩ := x
      obtain ⟨J, ob, td, J', ob', hJ, hJo, hcov, hstep, hJ', hd, hob', htask⟩ := evalStep hn ho
      have hok := engOK_reachable hr
      have hext := (Good.step (env := env) e hok).2
      have heval : Evaluates env e w.inst w.obj ob.task e' r := ⟨⟨w, hn, rfl, rfl, ho⟩, by rw [obj?_eq hJ, hJo]; rfl⟩
      have hmain : J.handling = false → ob.task.eh = false := by
        intro hh
        cases he : ob.task.eh with
        | false => rfl
        | true =>
          have h1 := (hok.ok _ J hJ).eh (((ehOK_reachable hr).all _ J hJ).objs ob (List.mem_of_getElem? hJo) he)
          rw [hh] at h1
          cases h1
      obtain ⟨_, _, hother, hsame⟩ := evaluates_step heval
      have hh : J'.handling = J.handling := by
        obtain ⟨K, _, hK, _, _, _, h1, _⟩ := hsame J hJ
        rw [hJ'] at hK
        cases hK
        exact h1
      obtain ⟨I', hI', hx⟩ := hext _ J hJ
      have hlink : ∀ rows, (∀ r ∈ rows, r.1 ∈ J'.defn.toLinks ob.task) → ∀ c ∈ covLinks w.inst J' rows, FlagMeans (e.step env) c := by
        intro rows hrows c hc
        obtain ⟨x, hx1, rfl⟩ := List.mem_map.mp hc
        have hm := hrows x (List.mem_filter.mp hx1).1
        rw [hh]
        cases hJh : J.handling with
        | true => exact Troubled.ext hext (handling_troubled hr hJ hJh)
        | false =>
          refine ⟨I', hI', ?_⟩
          rw [hx.defn, ← hd]
          unfold Def.toLinks at hm
          rw [hmain hJh] at hm
          exact (List.mem_filter.mp hm).1
      have htop : ∀ {K : Inst}, e.insts[0]? = some K → e'.topMain = !K.handling := by
        intro K hK
        unfold topMain
        by_cases h0 : w.inst = 0
        · rw [h0] at hJ hJ'
          rw [hJ] at hK
          cases hK
          rw [hJ']
          exact congrArg (fun x => !x) hh
        · rw [hother 0 (fun h => h0 h.symm) (List.getElem?_eq_some_iff.mp hK).1, hK]
          rfl
      have hact : FlagMeans (e.step env) (e'.covActivity w.inst J' ob.task) := by
        obtain ⟨K, hK⟩ : ∃ K, e.insts[0]? = some K := ⟨_, List.getElem?_eq_getElem (by have := hok.ctr; omega)⟩
        unfold covActivity
        rw [htop hK]
        cases hKh : K.handling with
        | true => exact Troubled.ext hext (handling_troubled hr hK hKh)
        | false =>
          intro h0
          rw [h0] at hI' hJ
          rw [hJ] at hK
          cases hK
          refine ⟨I', hI', ?_⟩
          have hob : (afterPop env e w).obj? w.inst w.obj = some ob := (obj?_eq (e := afterPop env e w) (by rw [h0]; exact hJ)).trans hJo
          obtain ⟨td', htd', _⟩ := exec_outcome hob ho
          unfold taskDef? at htd'
          have hJ2 : (afterPop env e w).insts[w.inst]? = some J := by rw [h0]; exact hJ
          rw [hJ2] at htd'
          have h4 : J.defn.task? ob.task = some td' := htd'
          unfold Def.task? at h4
          rw [hmain hKh] at h4
          rw [hx.defn]
          exact ⟨td', List.mem_of_find?_eq_some h4, by simpa using List.find?_some h4⟩
      have hdone : ∀ c ∈ covDone env e' w.inst ob.task, FlagMeans (e.step env) c := by
        intro c hc
        unfold covDone at hc
        rw [hJ'] at hc
        rcases List.mem_append.mp hc with hc | hc
        · exact hlink _ doneRowsAny_links c hc
        · cases List.mem_singleton.mp hc
          exact hact
      have herr : ∀ c ∈ covError e' w.inst ob.task, FlagMeans (e.step env) c := by
        intro c hc
        unfold covError at hc
        rw [hJ'] at hc
        rcases List.mem_cons.mp hc with rfl | hc
        · exact hact
        · exact hlink _ errorRows_links c hc
      rw [hcov] at hc
      rcases List.mem_append.mp hc with hc | hc
      · obtain ⟨K, _, rfl⟩ := List.mem_map.mp hc
        trivial
      · revert hc
        unfold covResult
        split
        · exact herr c
        · exact hdone c
        · exact hdone c
        · exact fun hc => nomatch hc

theorem recorded_flags (id uri : String) (d : Def) (ins : AMap String Val) (n : Nat) :
    ∀ c ∈ (CovRun.run env (CovRun.init env id uri d ins) n).cov, FlagMeans (CovRun.run env (CovRun.init env id uri d ins) n).eng c := by
  induction n with
  | zero => exact fun c hc => nomatch hc
  | succ n ih =>
    have hr : Reachable env (CovRun.run env (CovRun.init env id uri d ins) n).eng := ⟨id, uri, d, ins, n, by rw [CovRun.run_eng]; rfl⟩
    intro c hc
    rcases List.mem_append.mp hc with hc | hc
    · exact FlagMeans.ext (Eng.Good.step (env := env) _ (Eng.engOK_reachable hr)).2 (ih c hc)
    · exact Eng.step_flags hr c hc

end Flow
