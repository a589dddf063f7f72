import Verif.Props.Validation

/-!
# C62: the failures and details listed for a slice
-/

namespace TFMA
namespace Validation

open Slicer MetricKeys

variable {c : NumCodec} {baseline : Option String} {metrics : Metrics} {key : MetricKey}

private structure CheckSpec (c : NumCodec) (baseline : Option String) (metrics : Metrics) (sk : Key) (key : MetricKey)
    (m : MetricValue) (ts : List SliceThreshold) (seen : List (Option Fl × Option Fl × Direction))
    (fs : List Failure) (ds : List Detail) : Prop where
  sound : ∀ f ∈ fs, f.key = key ∧ f.message ≠ .notFound ∧ (∃ x, m = .num x ∧ f.value = some x) ∧
    ¬ Passes baseline metrics key f.threshold m ∧ ∃ s, (s, f.threshold) ∈ ts ∧ Concerns c sk s
  complete : ∀ s t, (s, t) ∈ ts → Concerns c sk s → ¬ Passes baseline metrics key t m →
    t.bytes ∈ seen ∨ ∃ f ∈ fs, f.threshold.bytes = t.bytes
  nodup : (fs.map fun f => f.threshold.bytes).Nodup
  fresh : ∀ f ∈ fs, f.threshold.bytes ∉ seen
  detail : ∀ d ∈ ds, d.count = 1 ∧ ∃ s t, (s, t) ∈ ts ∧ Concerns c sk s ∧ d.spec = detailSpec s
  passed : ∀ s t, (s, t) ∈ ts → Concerns c sk s → Passes baseline metrics key t m → ∃ d ∈ ds, d.spec = detailSpec s

private theorem checkMetric_spec {sk : Key} {m : MetricValue} {ts : List SliceThreshold} {seen} {fs ds}
    (h : checkMetric c baseline metrics sk key m ts seen = .ok (fs, ds)) :
    CheckSpec c baseline metrics sk key m ts seen fs ds := by
  induction ts generalizing seen fs ds with
  | nil => cases h; constructor <;> simp
  | cons p rest ih =>
    obtain ⟨s, t⟩ := p
    unfold checkMetric at h
    split at h
    · rename_i ha
      have ha' : ¬ Concerns c sk s := by
        rw [← applies_iff]; simpa using ha
      have i := ih h
      refine ⟨?_, ?_, i.nodup, i.fresh, ?_, ?_⟩
      · intro f hf
        obtain ⟨h1, h2, h3, h4, s', h5, h6⟩ := i.sound f hf
        exact ⟨h1, h2, h3, h4, s', by simp [h5], h6⟩
      · intro s' t' hst hc hp
        rcases List.mem_cons.1 hst with heq | hst
        · cases heq; exact absurd hc ha'
        · exact i.complete s' t' hst hc hp
      · intro d hd
        obtain ⟨h1, s', t', h2, h3⟩ := i.detail d hd
        exact ⟨h1, s', t', by simp [h2], h3⟩
      · intro s' t' hst hc hp
        rcases List.mem_cons.1 hst with heq | hst
        · cases heq; exact absurd hc ha'
        · exact i.passed s' t' hst hc hp
    · rename_i ha
      have ha' : Concerns c sk s := by
        rw [← applies_iff]; simpa using ha
      cases hc : tryCheck baseline metrics key t m with
      | error e => rw [hc] at h; cases h
      | ok r =>
        obtain ⟨b, msg⟩ := r
        rw [hc] at h
        have hb := tryCheck_true hc
        have hmsg : msg ≠ .notFound := by
          unfold tryCheck at hc
          split at hc <;> cases hc <;> simp
        simp only [bind, Except.bind] at h
        cases b with
        | true =>
          have hpass : Passes baseline metrics key t m := hb.1 rfl
          simp only [if_true] at h
          cases hr : checkMetric c baseline metrics sk key m rest seen with
          | error e => rw [hr] at h; cases h
          | ok r =>
            obtain ⟨fs', ds'⟩ := r
            rw [hr] at h
            cases h
            have i := ih hr
            refine ⟨?_, ?_, i.nodup, i.fresh, ?_, ?_⟩
            · intro f hf
              obtain ⟨h1, h2, h3, h4, s', h5, h6⟩ := i.sound f hf
              exact ⟨h1, h2, h3, h4, s', by simp [h5], h6⟩
            · intro s' t' hst hc hp
              rcases List.mem_cons.1 hst with heq | hst
              · cases heq; exact absurd hpass hp
              · exact i.complete s' t' hst hc hp
            · intro d hd
              rcases List.mem_cons.1 hd with rfl | hd
              · exact ⟨rfl, s, t, by simp, ha', rfl⟩
              · obtain ⟨h1, s', t', h2, h3⟩ := i.detail d hd
                exact ⟨h1, s', t', by simp [h2], h3⟩
            · intro s' t' hst hc hp
              rcases List.mem_cons.1 hst with heq | hst
              · cases heq; exact ⟨_, List.mem_cons_self, rfl⟩
              · obtain ⟨d, h1, h2⟩ := i.passed s' t' hst hc hp
                exact ⟨d, by simp [h1], h2⟩
        | false =>
          have hnp : ¬ Passes baseline metrics key t m := fun h => by simpa using hb.2 h
          simp only [Bool.false_eq_true, if_false] at h
          split at h
          · rename_i hseen
            have i := ih h
            refine ⟨?_, ?_, i.nodup, i.fresh, ?_, ?_⟩
            · intro f hf
              obtain ⟨h1, h2, h3, h4, s', h5, h6⟩ := i.sound f hf
              exact ⟨h1, h2, h3, h4, s', by simp [h5], h6⟩
            · intro s' t' hst hc hp
              rcases List.mem_cons.1 hst with heq | hst
              · cases heq; exact .inl hseen
              · exact i.complete s' t' hst hc hp
            · intro d hd
              obtain ⟨h1, s', t', h2, h3⟩ := i.detail d hd
              exact ⟨h1, s', t', by simp [h2], h3⟩
            · intro s' t' hst hc hp
              rcases List.mem_cons.1 hst with heq | hst
              · cases heq; exact absurd hp hnp
              · exact i.passed s' t' hst hc hp
          · rename_i hseen
            cases hf : m.float with
            | error e => rw [hf] at h; cases h
            | ok x =>
              rw [hf] at h
              simp only at h
              cases hr : checkMetric c baseline metrics sk key m rest (t.bytes :: seen) with
              | error e => rw [hr] at h; cases h
              | ok r =>
                obtain ⟨fs', ds'⟩ := r
                rw [hr] at h
                cases h
                have i := ih hr
                refine ⟨?_, ?_, ?_, ?_, ?_, ?_⟩
                · intro f hf'
                  rcases List.mem_cons.1 hf' with rfl | hf'
                  · refine ⟨rfl, hmsg, ⟨x, ?_, rfl⟩, hnp, s, by simp, ha'⟩
                    cases m <;> simp_all [MetricValue.float]
                  · obtain ⟨h1, h2, h3, h4, s', h5, h6⟩ := i.sound f hf'
                    exact ⟨h1, h2, h3, h4, s', by simp [h5], h6⟩
                · intro s' t' hst hc hp
                  rcases List.mem_cons.1 hst with heq | hst
                  · cases heq; exact .inr ⟨_, List.mem_cons_self, rfl⟩
                  · rcases i.complete s' t' hst hc hp with h1 | ⟨f, h1, h2⟩
                    · rcases List.mem_cons.1 h1 with h1 | h1
                      · exact .inr ⟨_, List.mem_cons_self, h1.symm⟩
                      · exact .inl h1
                    · exact .inr ⟨f, by simp [h1], h2⟩
                · simp only [List.map_cons, List.nodup_cons]
                  refine ⟨?_, i.nodup⟩
                  intro hmem
                  obtain ⟨f, h1, h2⟩ := List.mem_map.1 hmem
                  exact i.fresh f h1 (by rw [h2]; simp)
                · intro f hf'
                  rcases List.mem_cons.1 hf' with rfl | hf'
                  · exact hseen
                  · exact fun h => i.fresh f hf' (by simp [h])
                · intro d hd
                  rcases List.mem_cons.1 hd with rfl | hd
                  · exact ⟨rfl, s, t, by simp, ha', rfl⟩
                  · obtain ⟨h1, s', t', h2, h3⟩ := i.detail d hd
                    exact ⟨h1, s', t', by simp [h2], h3⟩
                · intro s' t' hst hc hp
                  rcases List.mem_cons.1 hst with heq | hst
                  · cases heq; exact ⟨_, List.mem_cons_self, rfl⟩
                  · obtain ⟨d, h1, h2⟩ := i.passed s' t' hst hc hp
                    exact ⟨d, by simp [h1], h2⟩

private structure MetricsSpec (c : NumCodec) (baseline : Option String) (all : Metrics) (th : Thresholds) (sk : Key)
    (ms : Metrics) (fs : List Failure) (ds : List Detail) : Prop where
  sound : ∀ f ∈ fs, f.message ≠ .notFound ∧ baseline ≠ some f.key.modelName ∧ ∃ x ts s, (f.key, .num x) ∈ ms ∧
    f.value = some x ∧ Dict.get? th f.key = some ts ∧ (s, f.threshold) ∈ ts ∧ Concerns c sk s ∧
    ¬ Passes baseline all f.key f.threshold (.num x)
  complete : ∀ k m ts s t, (k, m) ∈ ms → Dict.get? th k = some ts → baseline ≠ some k.modelName → (s, t) ∈ ts →
    Concerns c sk s → ¬ Passes baseline all k t m → ∃ f ∈ fs, f.key = k ∧ f.threshold.bytes = t.bytes
  nodup : Dict.WF ms → (fs.map fun f => (f.key, f.threshold.bytes)).Nodup
  detail : ∀ d ∈ ds, d.count = 1 ∧ ∃ k m ts s t, (k, m) ∈ ms ∧ Dict.get? th k = some ts ∧
    baseline ≠ some k.modelName ∧ (s, t) ∈ ts ∧ Concerns c sk s ∧ d.spec = detailSpec s
  passed : ∀ k m ts s t, (k, m) ∈ ms → Dict.get? th k = some ts → baseline ≠ some k.modelName → (s, t) ∈ ts →
    Concerns c sk s → Passes baseline all k t m → ∃ d ∈ ds, d.spec = detailSpec s

private theorem checkMetrics_spec {all : Metrics} {th : Thresholds} {sk : Key} {ms : Metrics} {fs ds}
    (h : checkMetrics c baseline all th sk ms = .ok (fs, ds)) : MetricsSpec c baseline all th sk ms fs ds := by
  induction ms generalizing fs ds with
  | nil => cases h; constructor <;> simp
  | cons km rest ih =>
    obtain ⟨k, m⟩ := km
    have skip : checkMetrics c baseline all th sk rest = .ok (fs, ds) →
        (∀ ts, Dict.get? th k = some ts → baseline = some k.modelName) →
        MetricsSpec c baseline all th sk ((k, m) :: rest) fs ds := by
      intro h hk
      have i := ih h
      refine ⟨?_, ?_, ?_, ?_, ?_⟩
      · intro f hf
        obtain ⟨h1, h2, x, ts, s, h3, h4⟩ := i.sound f hf
        exact ⟨h1, h2, x, ts, s, by simp [h3], h4⟩
      · intro k' m' ts s t hm hts hb
        rcases List.mem_cons.1 hm with heq | hm
        · cases heq; exact absurd (hk ts hts) hb
        · exact i.complete k' m' ts s t hm hts hb
      · intro hwf
        exact i.nodup (by simp only [Dict.WF, Dict.keys, List.map_cons, List.nodup_cons] at hwf; exact hwf.2)
      · intro d hd
        obtain ⟨h1, k', m', ts, s, t, h2, h3⟩ := i.detail d hd
        exact ⟨h1, k', m', ts, s, t, by simp [h2], h3⟩
      · intro k' m' ts s t hm hts hb
        rcases List.mem_cons.1 hm with heq | hm
        · cases heq; exact absurd (hk ts hts) hb
        · exact i.passed k' m' ts s t hm hts hb
    unfold checkMetrics at h
    split at h
    · rename_i hk
      exact skip h (by rw [hk]; simp)
    · rename_i ts hk
      split at h
      · rename_i hb
        exact skip h fun _ _ => hb
      · rename_i hb
        cases hc : checkMetric c baseline all sk k m ts [] with
        | error e => rw [hc] at h; cases h
        | ok r =>
          obtain ⟨fs1, ds1⟩ := r
          cases hr : checkMetrics c baseline all th sk rest with
          | error e => rw [hc, hr] at h; cases h
          | ok r =>
            obtain ⟨fs2, ds2⟩ := r
            rw [hc, hr] at h
            cases h
            have i := ih hr
            have j := checkMetric_spec hc
            refine ⟨?_, ?_, ?_, ?_, ?_⟩
            · intro f hf
              rcases List.mem_append.1 hf with hf | hf
              · obtain ⟨h1, h2, ⟨x, rfl, h3⟩, h4, s, h5, h6⟩ := j.sound f hf
                rw [h1]
                exact ⟨h2, hb, x, ts, s, by simp, h3, hk, h5, h6, h4⟩
              · obtain ⟨h1, h2, x, ts, s, h3, h4⟩ := i.sound f hf
                exact ⟨h1, h2, x, ts, s, by simp [h3], h4⟩
            · intro k' m' ts' s t hm hts hb' hst hcon hp
              rcases List.mem_cons.1 hm with heq | hm
              · cases heq
                rw [hk] at hts
                cases hts
                rcases j.complete s t hst hcon hp with h1 | ⟨f, h1, h2⟩
                · simp at h1
                · exact ⟨f, by simp [h1], (j.sound f h1).1, h2⟩
              · obtain ⟨f, h1, h2⟩ := i.complete k' m' ts' s t hm hts hb' hst hcon hp
                exact ⟨f, by simp [h1], h2⟩
            · intro hwf
              simp only [Dict.WF, Dict.keys, List.map_cons, List.nodup_cons] at hwf
              rw [List.map_append]
              apply List.Nodup.append
              · apply List.Nodup.of_map Prod.snd
                rw [List.map_map]
                exact j.nodup
              · exact i.nodup hwf.2
              · intro p h1 h2
                obtain ⟨f, hf, rfl⟩ := List.mem_map.1 h1
                obtain ⟨g, hg, hfg⟩ := List.mem_map.1 h2
                obtain ⟨-, -, x, -, -, h3, -⟩ := i.sound g hg
                apply hwf.1
                have h4 := (j.sound f hf).1
                have h5 : g.key = f.key := congrArg Prod.fst hfg
                rw [← h4, ← h5]
                exact List.mem_map.2 ⟨_, h3, rfl⟩
            · intro d hd
              rcases List.mem_append.1 hd with hd | hd
              · obtain ⟨h1, s, t, h2, h3, h4⟩ := j.detail d hd
                exact ⟨h1, k, m, ts, s, t, by simp, hk, hb, h2, h3, h4⟩
              · obtain ⟨h1, k', m', ts, s, t, h2, h3⟩ := i.detail d hd
                exact ⟨h1, k', m', ts, s, t, by simp [h2], h3⟩
            · intro k' m' ts' s t hm hts hb' hst hcon hp
              rcases List.mem_cons.1 hm with heq | hm
              · cases heq
                rw [hk] at hts
                cases hts
                obtain ⟨d, h1, h2⟩ := j.passed s t hst hcon hp
                exact ⟨d, by simp [h1], h2⟩
              · obtain ⟨d, h1, h2⟩ := i.passed k' m' ts' s t hm hts hb' hst hcon hp
                exact ⟨d, by simp [h1], h2⟩

private theorem missingMetric_spec (sk : Key) (k : MetricKey) (ts : List SliceThreshold) (seen) :
    (∀ f ∈ missingMetric c sk k ts seen, f.key = k ∧ f.message = .notFound ∧ f.value = none ∧
      (∃ s, (s, f.threshold) ∈ ts ∧ ConcernsLoosely c sk s) ∧ f.threshold.bytes ∉ seen) ∧
    (∀ s t, (s, t) ∈ ts → ConcernsLoosely c sk s →
      t.bytes ∈ seen ∨ ∃ f ∈ missingMetric c sk k ts seen, f.threshold.bytes = t.bytes) ∧
    ((missingMetric c sk k ts seen).map fun f => f.threshold.bytes).Nodup := by
  induction ts generalizing seen with
  | nil => simp [missingMetric]
  | cons p rest ih =>
    obtain ⟨s, t⟩ := p
    by_cases ha : appliesMissing c sk s = true
    · have ha' := (appliesMissing_iff sk s).1 ha
      by_cases hs : t.bytes ∈ seen
      · have heq : missingMetric c sk k ((s, t) :: rest) seen = missingMetric c sk k rest seen := by
          rw [missingMetric, if_neg (by simp [ha]), if_pos hs]
        rw [heq]
        obtain ⟨i1, i2, i3⟩ := ih seen
        refine ⟨fun f hf => ?_, fun s' t' hst hc => ?_, i3⟩
        · obtain ⟨h1, h2, h3, ⟨s', h4, h5⟩, h6⟩ := i1 f hf
          exact ⟨h1, h2, h3, ⟨s', by simp [h4], h5⟩, h6⟩
        · rcases List.mem_cons.1 hst with heq | hst
          · cases heq; exact .inl hs
          · exact i2 s' t' hst hc
      · have heq : missingMetric c sk k ((s, t) :: rest) seen =
            ⟨k, none, t, .notFound⟩ :: missingMetric c sk k rest (t.bytes :: seen) := by
          rw [missingMetric, if_neg (by simp [ha]), if_neg hs]
        rw [heq]
        obtain ⟨i1, i2, i3⟩ := ih (t.bytes :: seen)
        refine ⟨fun f hf => ?_, fun s' t' hst hc => ?_, ?_⟩
        · rcases List.mem_cons.1 hf with rfl | hf
          · exact ⟨rfl, rfl, rfl, ⟨s, by simp, ha'⟩, hs⟩
          · obtain ⟨h1, h2, h3, ⟨s', h4, h5⟩, h6⟩ := i1 f hf
            exact ⟨h1, h2, h3, ⟨s', by simp [h4], h5⟩, fun h => h6 (by simp [h])⟩
        · rcases List.mem_cons.1 hst with heq | hst
          · cases heq; exact .inr ⟨_, List.mem_cons_self, rfl⟩
          · rcases i2 s' t' hst hc with h1 | ⟨f, h1, h2⟩
            · rcases List.mem_cons.1 h1 with h1 | h1
              · exact .inr ⟨_, List.mem_cons_self, h1.symm⟩
              · exact .inl h1
            · exact .inr ⟨f, by simp [h1], h2⟩
        · simp only [List.map_cons, List.nodup_cons]
          refine ⟨?_, i3⟩
          intro hmem
          obtain ⟨f, h1, h2⟩ := List.mem_map.1 hmem
          exact (i1 f h1).2.2.2.2 (by rw [h2]; simp)
    · have ha' : ¬ ConcernsLoosely c sk s := by rw [← appliesMissing_iff]; exact ha
      have heq : missingMetric c sk k ((s, t) :: rest) seen = missingMetric c sk k rest seen := by
        rw [missingMetric, if_pos (by simpa using ha)]
      rw [heq]
      obtain ⟨i1, i2, i3⟩ := ih seen
      refine ⟨fun f hf => ?_, fun s' t' hst hc => ?_, i3⟩
      · obtain ⟨h1, h2, h3, ⟨s', h4, h5⟩, h6⟩ := i1 f hf
        exact ⟨h1, h2, h3, ⟨s', by simp [h4], h5⟩, h6⟩
      · rcases List.mem_cons.1 hst with heq | hst
        · cases heq; exact absurd hc ha'
        · exact i2 s' t' hst hc

private theorem missingMetrics_spec (sk : Key) (th : Thresholds) :
    (∀ f ∈ missingMetrics c baseline sk th, f.message = .notFound ∧ f.value = none ∧ baseline ≠ some f.key.modelName ∧
      ∃ ts s, (f.key, ts) ∈ th ∧ (s, f.threshold) ∈ ts ∧ ConcernsLoosely c sk s) ∧
    (∀ k ts s t, (k, ts) ∈ th → baseline ≠ some k.modelName → (s, t) ∈ ts → ConcernsLoosely c sk s →
      ∃ f ∈ missingMetrics c baseline sk th, f.key = k ∧ f.threshold.bytes = t.bytes) ∧
    (Dict.WF th → ((missingMetrics c baseline sk th).map fun f => (f.key, f.threshold.bytes)).Nodup) := by
  induction th with
  | nil => simp [missingMetrics]
  | cons kt rest ih =>
    obtain ⟨k, ts⟩ := kt
    obtain ⟨i1, i2, i3⟩ := ih
    have hwf' : Dict.WF ((k, ts) :: rest) → k ∉ rest.map Prod.fst ∧ Dict.WF rest := by
      intro hwf
      simpa only [Dict.WF, Dict.keys, List.map_cons, List.nodup_cons] using hwf
    unfold missingMetrics
    split
    · rename_i hb
      refine ⟨fun f hf => ?_, fun k' ts' s t hk hb' => ?_, fun hwf => i3 (hwf' hwf).2⟩
      · obtain ⟨h1, h2, h3, ts', s, h4, h5⟩ := i1 f hf
        exact ⟨h1, h2, h3, ts', s, by simp [h4], h5⟩
      · rcases List.mem_cons.1 hk with heq | hk
        · cases heq; exact absurd hb hb'
        · exact i2 k' ts' s t hk hb'
    · rename_i hb
      obtain ⟨j1, j2, j3⟩ := missingMetric_spec (c := c) sk k ts []
      refine ⟨fun f hf => ?_, fun k' ts' s t hk hb' hst hc => ?_, fun hwf => ?_⟩
      · rcases List.mem_append.1 hf with hf | hf
        · obtain ⟨h1, h2, h3, ⟨s, h4, h5⟩, _⟩ := j1 f hf
          rw [h1]
          exact ⟨h2, h3, hb, ts, s, by simp, h4, h5⟩
        · obtain ⟨h1, h2, h3, ts', s, h4, h5⟩ := i1 f hf
          exact ⟨h1, h2, h3, ts', s, by simp [h4], h5⟩
      · rcases List.mem_cons.1 hk with heq | hk
        · cases heq
          rcases j2 s t hst hc with h | ⟨f, h1, h2⟩
          · simp at h
          · exact ⟨f, by simp [h1], (j1 f h1).1, h2⟩
        · obtain ⟨f, h1, h2⟩ := i2 k' ts' s t hk hb' hst hc
          exact ⟨f, by simp [h1], h2⟩
      · obtain ⟨hw1, hw2⟩ := hwf' hwf
        rw [List.map_append]
        apply List.Nodup.append
        · apply List.Nodup.of_map Prod.snd
          rw [List.map_map]
          exact j3
        · exact i3 hw2
        · intro p h1 h2
          obtain ⟨f, hf, rfl⟩ := List.mem_map.1 h1
          obtain ⟨g, hg, hfg⟩ := List.mem_map.1 h2
          obtain ⟨-, -, -, ts', -, h3, -⟩ := i1 g hg
          apply hw1
          have h4 := (j1 f hf).1
          have h5 : g.key = f.key := congrArg Prod.fst hfg
          rw [← h4, ← h5]
          exact List.mem_map.2 ⟨_, h3, rfl⟩

/-- The failures listed in a result. -/
def Result.failures (r : Result) : List Failure := r.perSlice.flatMap Prod.snd

private theorem validate_cases {th : Thresholds} {sk : Key} {r : Result}
    (h : validate c baseline th sk metrics = .ok r) :
    ∃ fs, MetricsSpec c baseline metrics th sk metrics fs r.details ∧
      r.failures = fs ++ missingMetrics c baseline sk (th.filter fun kv => !Dict.has metrics kv.1) ∧
      (∀ p ∈ r.perSlice, p.1 = sk) := by
  unfold validate at h
  cases hc : checkMetrics c baseline metrics th sk metrics with
  | error e => rw [hc] at h; cases h
  | ok r' =>
    obtain ⟨fs, ds⟩ := r'
    rw [hc] at h
    cases h
    refine ⟨fs, checkMetrics_spec hc, ?_, ?_⟩
    · unfold Result.failures
      simp only
      split
      · rename_i he
        rw [List.isEmpty_iff] at he
        simp [he]
      · simp
    · intro p hp
      simp only at hp
      split at hp
      · cases hp
      · simp at hp; rw [hp]

/-- C62: every failure listed is a violation: the threshold is configured for the metric of a non-baseline model and
either the metric is a number (which is listed) that does not pass although the threshold concerns the slice, or the
metric is missing. -/
theorem C62_failures_sound {th : Thresholds} {sk : Key} {r : Result} (hm : Dict.WF metrics)
    (h : validate c baseline th sk metrics = .ok r) (f : Failure) (hf : f ∈ r.failures) :
    baseline ≠ some f.key.modelName ∧ ∃ ts s, (f.key, ts) ∈ th ∧ (s, f.threshold) ∈ ts ∧
      ((∃ x, Dict.get? metrics f.key = some (.num x) ∧ f.value = some x ∧ f.message ≠ .notFound ∧ Concerns c sk s ∧
          ¬ Passes baseline metrics f.key f.threshold (.num x)) ∨
       (Dict.get? metrics f.key = none ∧ f.value = none ∧ f.message = .notFound ∧ ConcernsLoosely c sk s)) := by
  obtain ⟨fs, hs, he, _⟩ := validate_cases h
  rw [he] at hf
  rcases List.mem_append.1 hf with hf | hf
  · obtain ⟨h1, h2, x, ts, s, h3, h4, h5, h6, h7, h8⟩ := hs.sound f hf
    exact ⟨h2, ts, s, Dict.mem_of_get? h5, h6, .inl ⟨x, Dict.get?_of_mem hm h3, h4, h1, h7, h8⟩⟩
  · obtain ⟨h1, h2, h3, ts, s, h4, h5, h6⟩ := (missingMetrics_spec sk _).1 f hf
    simp only [List.mem_filter, Dict.has, Bool.not_eq_true', Option.isSome_eq_false_iff,
      Option.isNone_iff_eq_none] at h4
    exact ⟨h3, ts, s, h4.1, h5, .inr ⟨h4.2, h2, h1, h6⟩⟩

/-- C62: every violated threshold that concerns the slice is listed (thresholds with the same settings as one entry). -/
theorem C62_failures_complete {th : Thresholds} {sk : Key} {r : Result} (hth : Dict.WF th)
    (h : validate c baseline th sk metrics = .ok r) (k : MetricKey) (ts : List SliceThreshold) (hk : (k, ts) ∈ th)
    (hb : baseline ≠ some k.modelName) (s : Option SliceSpec) (t : Threshold) (hst : (s, t) ∈ ts)
    (hc : Concerns c sk s) (hv : ∀ m, Dict.get? metrics k = some m → ¬ Passes baseline metrics k t m) :
    ∃ f ∈ r.failures, f.key = k ∧ f.threshold.bytes = t.bytes := by
  obtain ⟨fs, hs, he, _⟩ := validate_cases h
  rw [he]
  cases hg : Dict.get? metrics k with
  | none =>
    have hl : ConcernsLoosely c sk s := by
      unfold ConcernsLoosely; split
      · trivial
      · exact hc
    obtain ⟨f, h1, h2⟩ := (missingMetrics_spec (c := c) (baseline := baseline) sk
      (th.filter fun kv => !Dict.has metrics kv.1)).2.1 k ts s t (by simp [hk, Dict.has, hg]) hb hst hl
    exact ⟨f, by simp [h1], h2⟩
  | some m =>
    obtain ⟨f, h1, h2⟩ := hs.complete k m ts s t (Dict.mem_of_get? hg) (Dict.get?_of_mem hth hk) hb hst hc (hv m hg)
    exact ⟨f, by simp [h1], h2⟩

/-- C62: no failure is listed twice: metric and threshold settings are different for all entries; all entries are filed
under the key of the slice. -/
theorem C62_failures_once {th : Thresholds} {sk : Key} {r : Result} (hth : Dict.WF th) (hm : Dict.WF metrics)
    (h : validate c baseline th sk metrics = .ok r) :
    (r.failures.map fun f => (f.key, f.threshold.bytes)).Nodup ∧ ∀ p ∈ r.perSlice, p.1 = sk := by
  obtain ⟨fs, hs, he, hp⟩ := validate_cases h
  refine ⟨?_, hp⟩
  rw [he, List.map_append]
  apply List.Nodup.append (hs.nodup hm)
  · apply (missingMetrics_spec sk _).2.2
    unfold Dict.WF Dict.keys at hth ⊢
    exact hth.sublist (List.Sublist.map _ List.filter_sublist)
  · intro p h1 h2
    obtain ⟨f, hf, rfl⟩ := List.mem_map.1 h1
    obtain ⟨g, hg, hfg⟩ := List.mem_map.1 h2
    have h5 : g.key = f.key := congrArg Prod.fst hfg
    obtain ⟨-, -, x, -, -, h3, -⟩ := hs.sound f hf
    obtain ⟨-, -, -, ts, -, h4, -⟩ := (missingMetrics_spec sk _).1 g hg
    simp only [List.mem_filter, Dict.has, Bool.not_eq_true', Option.isSome_eq_false_iff,
      Option.isNone_iff_eq_none] at h4
    rw [h5, Dict.get?_of_mem hm h3] at h4
    cases h4.2

/-- C62: the details of a slice count one match for specs of configured thresholds that concern the slice only. -/
theorem C62_details_sound {th : Thresholds} {sk : Key} {r : Result}
    (h : validate c baseline th sk metrics = .ok r) (d : Detail) (hd : d ∈ r.details) :
    d.count = 1 ∧ ∃ k ts s t, (k, ts) ∈ th ∧ baseline ≠ some k.modelName ∧ (s, t) ∈ ts ∧ Concerns c sk s ∧
      d.spec = detailSpec s := by
  obtain ⟨fs, hs, he, _⟩ := validate_cases h
  obtain ⟨h1, k, m, ts, s, t, h2, h3, h4, h5, h6, h7⟩ := hs.detail d hd
  exact ⟨h1, k, ts, s, t, Dict.mem_of_get? h3, h4, h5, h6, h7⟩

/-- C62: a spec whose threshold passes for the slice is mentioned in the details. -/
theorem C62_details_passed {th : Thresholds} {sk : Key} {r : Result} (hth : Dict.WF th)
    (h : validate c baseline th sk metrics = .ok r) (k : MetricKey) (ts : List SliceThreshold) (hk : (k, ts) ∈ th)
    (hb : baseline ≠ some k.modelName) (s : Option SliceSpec) (t : Threshold) (hst : (s, t) ∈ ts)
    (hc : Concerns c sk s) (m : MetricValue) (hm : Dict.get? metrics k = some m)
    (hp : Passes baseline metrics k t m) : ∃ d ∈ r.details, d.spec = detailSpec s := by
  obtain ⟨fs, hs, he, _⟩ := validate_cases h
  exact hs.passed k m ts s t (Dict.mem_of_get? hm) (Dict.get?_of_mem hth hk) hb hst hc hp

/-- C62 (negation): if two specs apply to the slice and the same threshold fails for both then only the first spec
is mentioned in the details. -/
theorem C62_second_spec_not_mentioned :
    (validate c none [(k0, [(none, .value (some (.fin 1)) none), (some (.single ⟨["age"], []⟩), .value (some (.fin 1)) none)])]
      (.ordinary [("age", .int 5)]) [(k0, .num (.fin 0))]).map (fun r => r.details.map Detail.spec) =
        .ok [.single ⟨[], []⟩] ∧
      Concerns c (.ordinary [("age", .int 5)]) (some (.single ⟨["age"], []⟩)) := by
  constructor
  · simp [validate, checkMetrics, checkMetric, applies, Key.isCross, Spec.isSliceApplicable, applicableLoop, tryCheck,
      checkThreshold, MetricValue.float, bind, Except.bind, pure, Except.pure, Fl.le, Threshold.bytes, Except.map,
      detailSpec, Dict.get?, toType, show ¬ (1 : ℚ) ≤ 0 by decide]
  · simp [Concerns, Spec.isSliceApplicable, applicableLoop, toType]

/-- A failing threshold is listed with the value. -/
example : (validate c none [(k0, [(none, .value (some (.fin 1)) none)])] (.ordinary []) [(k0, .num (.fin 0))]).map
    Result.failures = .ok [⟨k0, some (.fin 0), .value (some (.fin 1)) none, .none⟩] := rfl

end Validation
end TFMA
