import Verif.Registrar.Props
/-!
# C71: what a REGISTER is answered
-/
set_option linter.unusedSimpArgs false
namespace Siphon.Registrar
open Spec HdrSpec TextSpec Auth.Spec

/-! ## C71: the 200 lists the bindings -/

theorem pushAll_inner {name : Str} : ∀ {vs : List Str} {h : Except HeaderError Headers} {r : Headers},
    pushAll name vs h = .ok r → ∃ h0, h = .ok h0 ∧ r.inner = h0.inner ++ vs.map (fun v => ⟨name, v⟩)
  | [], h, r, e => ⟨r, e, by simp⟩
  | v :: vs, h, r, e => by
    cases h with
    | error _ => simp [pushAll] at e
    | ok h0 =>
      simp only [pushAll] at e
      obtain ⟨h1, e1, e2⟩ := pushAll_inner e
      refine ⟨h0, rfl, ?_⟩
      rw [e2, C24_push _ _ _ _ e1]
      simp

theorem appendExtensions_inner {r : Reg} {bs : List Binding} {h : Except HeaderError Headers} {out : Headers}
    (e : r.appendExtensions bs h = .ok out) : ∃ h0 more, h = .ok h0 ∧ out.inner = h0.inner ++ more ∧
      ∀ x ∈ more, x.name ∈ ["Service-Route".toList, "Supported".toList, "Path".toList] := by
  unfold Reg.appendExtensions at e
  simp only at e
  obtain ⟨h2, e2, i2⟩ := pushAll_inner e
  have step : ∃ h1 m1, (match r.serviceRoute with | some sr => pushAll "Service-Route".toList [renderPath sr] h | none => h) = .ok h1 ∧
      h2.inner = h1.inner ++ m1 ∧ ∀ x ∈ m1, x.name = "Supported".toList := by
    split at e2
    · obtain ⟨h1, e1, i1⟩ := pushAll_inner e2
      exact ⟨h1, _, e1, i1, by simp⟩
    · exact ⟨h2, [], e2, by simp, by simp⟩
  obtain ⟨h1, m1, e1, i1, n1⟩ := step
  have step2 : ∃ h0 m0, h = .ok h0 ∧ h1.inner = h0.inner ++ m0 ∧ ∀ x ∈ m0, x.name = "Service-Route".toList := by
    split at e1
    · obtain ⟨h0, e0, i0⟩ := pushAll_inner e1
      exact ⟨h0, _, e0, i0, by simp⟩
    · exact ⟨h1, [], e1, by simp, by simp⟩
  obtain ⟨h0, m0, e0, i0, n0⟩ := step2
  refine ⟨h0, m0 ++ m1 ++ (distinctPaths bs []).map (fun v => ⟨"Path".toList, v⟩), e0, ?_, ?_⟩
  · rw [i2, i1, i0]; simp
  · intro x hx
    rcases List.mem_append.mp hx with hx | hx
    · rcases List.mem_append.mp hx with hx | hx
      · rw [n0 x hx]; simp
      · rw [n1 x hx]; simp
    · obtain ⟨v, _, rfl⟩ := List.mem_map.mp hx; simp

theorem formatContact_eq (b : Binding) : formatContact b = contactLine b := by
  unfold formatContact contactLine
  split
  · rename_i h; rw [h]; simp only [if_true, List.append_nil, List.append_assoc]; rfl
  · rename_i h; simp only [h, if_false, List.append_assoc]

/-- C71: the Contact values of a 200 to a REGISTER without wildcard are, in order, exactly the bindings that a
lookup of the address named by To shows right after, each with its remaining whole seconds and its q-value. -/
theorem C71_answer_lists_bindings (w : World) (r : Reg) (req : Request) (d : Draw) (resp : Response)
    (h : (r.handle w req d).1 = .response resp) (h200 : resp.code = 200) (vs : List Str)
    (hvs : Contacts req.headers vs) (hstar : ∀ v ∈ vs, ¬ Strips isWs v ['*']) :
    ∃ aor, ToNames req.headers aor ∧
      Selects "Contact".toList resp.headers.inner
        (((r.handle w req d).2.store.lookup aor d.now d.now).1.map contactLine) := by
  obtain ⟨aor, a, hg, ha, hau, hway⟩ := handle_200 h h200
  rw [contacts_iff] at hvs
  subst hvs
  rcases hway with ⟨v, n, h1, h2, _⟩ | ⟨c, s', hctx, h2, hf, heff, hst, hresp⟩
  · exact absurd h2 (not_star hstar v (by rw [h1]; simp))
  · refine ⟨aor, toNames_of ha, ?_⟩
    rw [hst, lookup_lookup _ _ _ _ _ _ (Nat.le_refl _) (Nat.le_refl _)]
    generalize (s'.lookup aor d.now d.now).1 = bs at hresp
    rw [h] at hresp
    unfold Reg.listResponse okResponse at hresp
    split at hresp
    · cases hresp
    · rename_i hd hpush
      split at hresp
      · rename_i rr hnew
        simp only [Outcome.response.injEq] at hresp
        subst hresp
        rw [responseNew_code hnew]
        simp only
        obtain ⟨h3, e3, i3⟩ := pushAll_inner hpush
        obtain ⟨h4, e4, i4⟩ := pushAll_inner e3
        obtain ⟨h5, more, e5, i5, n5⟩ := appendExtensions_inner e4
        obtain ⟨h6, e6, i6⟩ := pushAll_inner e5
        have hn := copied_names e6
        have hsel := C24_getAll hd "Contact".toList
        have : hd.getAll "Contact".toList = bs.map contactLine := by
          unfold Headers.getAll
          rw [i3, i4, i5, i6]
          have f1 : h6.inner.filter (·.nameEq "Contact".toList) = [] := by
            rw [List.filter_eq_nil_iff]
            intro x hx
            have hm := hn x hx
            unfold copiedNames at hm
            simp only [List.mem_cons, List.not_mem_nil, or_false] at hm
            unfold Header.nameEq
            rcases hm with e | e | e | e | e <;> rw [e] <;> decide
          have f2 : more.filter (·.nameEq "Contact".toList) = [] := by
            rw [List.filter_eq_nil_iff]
            intro x hx
            have hm := n5 x hx
            simp only [List.mem_cons, List.not_mem_nil, or_false] at hm
            unfold Header.nameEq
            rcases hm with e | e | e <;> rw [e] <;> decide
          have f3 : ∀ l : List Str, (l.map (fun v => (⟨"Contact".toList, v⟩ : Header))).filter (·.nameEq "Contact".toList)
              = l.map (fun v => (⟨"Contact".toList, v⟩ : Header)) := by
            intro l
            rw [List.filter_eq_self]
            intro x hx
            obtain ⟨v, _, rfl⟩ := List.mem_map.mp hx
            show eqIgnoreCase "Contact".toList "Contact".toList = true; decide
          simp only [List.filter_append, f1, f2, f3, List.nil_append, List.append_nil]
          have f4 : ([d.date].map (fun v => (⟨"Date".toList, v⟩ : Header))).filter (·.nameEq "Contact".toList) = [] := rfl
          have f5 : (["0".toList].map (fun v => (⟨"Content-Length".toList, v⟩ : Header))).filter (·.nameEq "Contact".toList) = [] := rfl
          rw [f4, f5]
          simp only [List.append_nil, List.map_map]
          apply List.map_congr_left
          intro b _
          exact formatContact_eq b
        rw [this] at hsel
        exact hsel
      · cases hresp

example : (match (Demo.reg.handle Demo.world (Demo.register "c" 1 [("Contact", "<sip:bob@1>;q=0.5, <sip:bob@2>")]) (Demo.at_ 0)).1 with
    | .response r => r.headers.getAll "Contact".toList | _ => [])
    = ["sip:bob@1;expires=3600;q=0.5".toList, "sip:bob@2;expires=3600;q=1".toList] := by decide +kernel

/-- C71, a limit of the format: the URI is written without angle brackets, so URI parameters and Contact
parameters cannot be told apart: the binding of `sip:bob@1;expires=5` for an hour reads, by the registrar's own
reader, as `sip:bob@1` with five seconds. -/
theorem C71_ambiguous : ∃ x : Binding, x.contact = "sip:bob@1;expires=5".toList ∧ x.expires = 3600 * SEC ∧
    extractContactUri (contactLine x) = some "sip:bob@1".toList ∧
    contactParamValue (contactLine x) "expires".toList = .ok (some "5".toList) :=
  ⟨{ aor := Demo.bob, contact := "sip:bob@1;expires=5".toList, expires := 3600 * SEC, callId := [], cseq := 1, q := ['1'],
     userAgent := none, path := none, flowToken := none, instanceId := none, regId := none }, rfl, rfl,
    by decide +kernel, by decide +kernel⟩

-- such a binding can be made
example : Demo.contacts (Demo.reg.handle Demo.world (Demo.register "c" 1 [("Contact", "<sip:bob@1;expires=5>")]) (Demo.at_ 0)).2.store 0
    = [("sip:bob@1;expires=5".toList, 3600)] := by decide +kernel

end Siphon.Registrar
