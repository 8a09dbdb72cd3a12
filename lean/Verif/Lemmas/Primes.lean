import Verif.Lemmas.Pratt
/-! # Primality certificates (Pratt) for the two moduli; generated -/
namespace Halo

theorem prime_459883 : Nat.Prime 459883 := by
  refine pratt 459883 3 [2, 3, 3, 29, 881] ?_ (by decide +kernel) (by decide +kernel) (by decide +kernel)
  intro r hr
  have hr' : r ∈ ([2, 3, 29, 881] : List ℕ) := by
    simp only [List.mem_cons, List.not_mem_nil, or_false] at hr ⊢; tauto
  simp only [List.mem_cons, List.not_mem_nil, or_false] at hr'
  rcases hr' with rfl | rfl | rfl | rfl
  · norm_num
  · norm_num
  · norm_num
  · norm_num

theorem prime_4598831 : Nat.Prime 4598831 := by
  refine pratt 4598831 23 [2, 5, 459883] ?_ (by decide +kernel) (by decide +kernel) (by decide +kernel)
  intro r hr
  have hr' : r ∈ ([2, 5, 459883] : List ℕ) := by
    simp only [List.mem_cons, List.not_mem_nil, or_false] at hr ⊢; tauto
  simp only [List.mem_cons, List.not_mem_nil, or_false] at hr'
  rcases hr' with rfl | rfl | rfl
  · norm_num
  · norm_num
  · exact prime_459883

theorem prime_43411 : Nat.Prime 43411 := by
  refine pratt 43411 3 [2, 3, 5, 1447] ?_ (by decide +kernel) (by decide +kernel) (by decide +kernel)
  intro r hr
  have hr' : r ∈ ([2, 3, 5, 1447] : List ℕ) := by
    simp only [List.mem_cons, List.not_mem_nil, or_false] at hr ⊢; tauto
  simp only [List.mem_cons, List.not_mem_nil, or_false] at hr'
  rcases hr' with rfl | rfl | rfl | rfl
  · norm_num
  · norm_num
  · norm_num
  · norm_num

theorem prime_1302331 : Nat.Prime 1302331 := by
  refine pratt 1302331 2 [2, 3, 5, 43411] ?_ (by decide +kernel) (by decide +kernel) (by decide +kernel)
  intro r hr
  have hr' : r ∈ ([2, 3, 5, 43411] : List ℕ) := by
    simp only [List.mem_cons, List.not_mem_nil, or_false] at hr ⊢; tauto
  simp only [List.mem_cons, List.not_mem_nil, or_false] at hr'
  rcases hr' with rfl | rfl | rfl | rfl
  · norm_num
  · norm_num
  · norm_num
  · exact prime_43411

theorem prime_7813987 : Nat.Prime 7813987 := by
  refine pratt 7813987 2 [2, 3, 1302331] ?_ (by decide +kernel) (by decide +kernel) (by decide +kernel)
  intro r hr
  have hr' : r ∈ ([2, 3, 1302331] : List ℕ) := by
    simp only [List.mem_cons, List.not_mem_nil, or_false] at hr ⊢; tauto
  simp only [List.mem_cons, List.not_mem_nil, or_false] at hr'
  rcases hr' with rfl | rfl | rfl
  · norm_num
  · norm_num
  · exact prime_1302331

theorem prime_87011 : Nat.Prime 87011 := by
  refine pratt 87011 2 [2, 5, 7, 11, 113] ?_ (by decide +kernel) (by decide +kernel) (by decide +kernel)
  intro r hr
  have hr' : r ∈ ([2, 5, 7, 11, 113] : List ℕ) := by
    simp only [List.mem_cons, List.not_mem_nil, or_false] at hr ⊢; tauto
  simp only [List.mem_cons, List.not_mem_nil, or_false] at hr'
  rcases hr' with rfl | rfl | rfl | rfl | rfl
  · norm_num
  · norm_num
  · norm_num
  · norm_num
  · norm_num

theorem prime_28365587 : Nat.Prime 28365587 := by
  refine pratt 28365587 2 [2, 163, 87011] ?_ (by decide +kernel) (by decide +kernel) (by decide +kernel)
  intro r hr
  have hr' : r ∈ ([2, 163, 87011] : List ℕ) := by
    simp only [List.mem_cons, List.not_mem_nil, or_false] at hr ⊢; tauto
  simp only [List.mem_cons, List.not_mem_nil, or_false] at hr'
  rcases hr' with rfl | rfl | rfl
  · norm_num
  · norm_num
  · exact prime_87011

theorem prime_397118219 : Nat.Prime 397118219 := by
  refine pratt 397118219 2 [2, 7, 28365587] ?_ (by decide +kernel) (by decide +kernel) (by decide +kernel)
  intro r hr
  have hr' : r ∈ ([2, 7, 28365587] : List ℕ) := by
    simp only [List.mem_cons, List.not_mem_nil, or_false] at hr ⊢; tauto
  simp only [List.mem_cons, List.not_mem_nil, or_false] at hr'
  rcases hr' with rfl | rfl | rfl
  · norm_num
  · norm_num
  · exact prime_28365587

theorem prime_794236439 : Nat.Prime 794236439 := by
  refine pratt 794236439 19 [2, 397118219] ?_ (by decide +kernel) (by decide +kernel) (by decide +kernel)
  intro r hr
  have hr' : r ∈ ([2, 397118219] : List ℕ) := by
    simp only [List.mem_cons, List.not_mem_nil, or_false] at hr ⊢; tauto
  simp only [List.mem_cons, List.not_mem_nil, or_false] at hr'
  rcases hr' with rfl | rfl
  · norm_num
  · exact prime_397118219

theorem prime_239500759 : Nat.Prime 239500759 := by
  refine pratt 239500759 6 [2, 3, 7, 967, 5897] ?_ (by decide +kernel) (by decide +kernel) (by decide +kernel)
  intro r hr
  have hr' : r ∈ ([2, 3, 7, 967, 5897] : List ℕ) := by
    simp only [List.mem_cons, List.not_mem_nil, or_false] at hr ⊢; tauto
  simp only [List.mem_cons, List.not_mem_nil, or_false] at hr'
  rcases hr' with rfl | rfl | rfl | rfl | rfl
  · norm_num
  · norm_num
  · norm_num
  · norm_num
  · norm_num

theorem prime_1385887 : Nat.Prime 1385887 := by
  refine pratt 1385887 5 [2, 3, 31, 7451] ?_ (by decide +kernel) (by decide +kernel) (by decide +kernel)
  intro r hr
  have hr' : r ∈ ([2, 3, 31, 7451] : List ℕ) := by
    simp only [List.mem_cons, List.not_mem_nil, or_false] at hr ⊢; tauto
  simp only [List.mem_cons, List.not_mem_nil, or_false] at hr'
  rcases hr' with rfl | rfl | rfl | rfl
  · norm_num
  · norm_num
  · norm_num
  · norm_num

theorem prime_7497648671 : Nat.Prime 7497648671 := by
  refine pratt 7497648671 7 [2, 5, 541, 1385887] ?_ (by decide +kernel) (by decide +kernel) (by decide +kernel)
  intro r hr
  have hr' : r ∈ ([2, 5, 541, 1385887] : List ℕ) := by
    simp only [List.mem_cons, List.not_mem_nil, or_false] at hr ⊢; tauto
  simp only [List.mem_cons, List.not_mem_nil, or_false] at hr'
  rcases hr' with rfl | rfl | rfl | rfl
  · norm_num
  · norm_num
  · norm_num
  · exact prime_1385887

theorem prime_59723 : Nat.Prime 59723 := by
  refine pratt 59723 2 [2, 13, 2297] ?_ (by decide +kernel) (by decide +kernel) (by decide +kernel)
  intro r hr
  have hr' : r ∈ ([2, 13, 2297] : List ℕ) := by
    simp only [List.mem_cons, List.not_mem_nil, or_false] at hr ⊢; tauto
  simp only [List.mem_cons, List.not_mem_nil, or_false] at hr'
  rcases hr' with rfl | rfl | rfl
  · norm_num
  · norm_num
  · norm_num

theorem prime_10319371 : Nat.Prime 10319371 := by
  refine pratt 10319371 3 [2, 3, 5, 61, 5639] ?_ (by decide +kernel) (by decide +kernel) (by decide +kernel)
  intro r hr
  have hr' : r ∈ ([2, 3, 5, 61, 5639] : List ℕ) := by
    simp only [List.mem_cons, List.not_mem_nil, or_false] at hr ⊢; tauto
  simp only [List.mem_cons, List.not_mem_nil, or_false] at hr'
  rcases hr' with rfl | rfl | rfl | rfl | rfl
  · norm_num
  · norm_num
  · norm_num
  · norm_num
  · norm_num

theorem prime_1232607588467 : Nat.Prime 1232607588467 := by
  refine pratt 1232607588467 2 [2, 59723, 10319371] ?_ (by decide +kernel) (by decide +kernel) (by decide +kernel)
  intro r hr
  have hr' : r ∈ ([2, 59723, 10319371] : List ℕ) := by
    simp only [List.mem_cons, List.not_mem_nil, or_false] at hr ⊢; tauto
  simp only [List.mem_cons, List.not_mem_nil, or_false] at hr'
  rcases hr' with rfl | rfl | rfl
  · norm_num
  · exact prime_59723
  · exact prime_10319371

theorem prime_110934682962031 : Nat.Prime 110934682962031 := by
  refine pratt 110934682962031 11 [2, 3, 3, 5, 1232607588467] ?_ (by decide +kernel) (by decide +kernel) (by decide +kernel)
  intro r hr
  have hr' : r ∈ ([2, 3, 5, 1232607588467] : List ℕ) := by
    simp only [List.mem_cons, List.not_mem_nil, or_false] at hr ⊢; tauto
  simp only [List.mem_cons, List.not_mem_nil, or_false] at hr'
  rcases hr' with rfl | rfl | rfl | rfl
  · norm_num
  · norm_num
  · norm_num
  · exact prime_1232607588467

theorem prime_47701913673673331 : Nat.Prime 47701913673673331 := by
  refine pratt 47701913673673331 2 [2, 5, 43, 110934682962031] ?_ (by decide +kernel) (by decide +kernel) (by decide +kernel)
  intro r hr
  have hr' : r ∈ ([2, 5, 43, 110934682962031] : List ℕ) := by
    simp only [List.mem_cons, List.not_mem_nil, or_false] at hr ⊢; tauto
  simp only [List.mem_cons, List.not_mem_nil, or_false] at hr'
  rcases hr' with rfl | rfl | rfl | rfl
  · norm_num
  · norm_num
  · norm_num
  · exact prime_110934682962031

theorem prime_251293681232911107709 : Nat.Prime 251293681232911107709 := by
  refine pratt 251293681232911107709 2 [2, 2, 3, 439, 47701913673673331] ?_ (by decide +kernel) (by decide +kernel) (by decide +kernel)
  intro r hr
  have hr' : r ∈ ([2, 3, 439, 47701913673673331] : List ℕ) := by
    simp only [List.mem_cons, List.not_mem_nil, or_false] at hr ⊢; tauto
  simp only [List.mem_cons, List.not_mem_nil, or_false] at hr'
  rcases hr' with rfl | rfl | rfl | rfl
  · norm_num
  · norm_num
  · norm_num
  · exact prime_47701913673673331

theorem prime_192230877197148812576275018793540833079827 : Nat.Prime 192230877197148812576275018793540833079827 := by
  refine pratt 192230877197148812576275018793540833079827 2 [2, 3, 71, 239500759, 7497648671, 251293681232911107709] ?_ (by decide +kernel) (by decide +kernel) (by decide +kernel)
  intro r hr
  have hr' : r ∈ ([2, 3, 71, 239500759, 7497648671, 251293681232911107709] : List ℕ) := by
    simp only [List.mem_cons, List.not_mem_nil, or_false] at hr ⊢; tauto
  simp only [List.mem_cons, List.not_mem_nil, or_false] at hr'
  rcases hr' with rfl | rfl | rfl | rfl | rfl | rfl
  · norm_num
  · norm_num
  · norm_num
  · exact prime_239500759
  · exact prime_7497648671
  · exact prime_251293681232911107709

theorem prime_modP : Nat.Prime 41779350816691014953522156191564118732861004145504938180595018507596047843329 := by
  refine pratt 41779350816691014953522156191564118732861004145504938180595018507596047843329 7 [2, 2, 2, 2, 2, 2, 2, 2, 2, 2, 2, 2, 2, 2, 2, 2, 2, 2, 2, 2, 2, 2, 2, 2, 2, 2, 2, 2, 2, 2, 2, 2, 3, 3, 197, 4598831, 7813987, 794236439, 192230877197148812576275018793540833079827] ?_ (by decide +kernel) (by decide +kernel) (by decide +kernel)
  intro r hr
  have hr' : r ∈ ([2, 3, 197, 4598831, 7813987, 794236439, 192230877197148812576275018793540833079827] : List ℕ) := by
    simp only [List.mem_cons, List.not_mem_nil, or_false] at hr ⊢; tauto
  simp only [List.mem_cons, List.not_mem_nil, or_false] at hr'
  rcases hr' with rfl | rfl | rfl | rfl | rfl | rfl | rfl
  · norm_num
  · norm_num
  · norm_num
  · exact prime_4598831
  · exact prime_7813987
  · exact prime_794236439
  · exact prime_192230877197148812576275018793540833079827

theorem prime_41183 : Nat.Prime 41183 := by
  refine pratt 41183 5 [2, 59, 349] ?_ (by decide +kernel) (by decide +kernel) (by decide +kernel)
  intro r hr
  have hr' : r ∈ ([2, 59, 349] : List ℕ) := by
    simp only [List.mem_cons, List.not_mem_nil, or_false] at hr ⊢; tauto
  simp only [List.mem_cons, List.not_mem_nil, or_false] at hr'
  rcases hr' with rfl | rfl | rfl
  · norm_num
  · norm_num
  · norm_num

theorem prime_6259817 : Nat.Prime 6259817 := by
  refine pratt 6259817 5 [2, 2, 2, 19, 41183] ?_ (by decide +kernel) (by decide +kernel) (by decide +kernel)
  intro r hr
  have hr' : r ∈ ([2, 19, 41183] : List ℕ) := by
    simp only [List.mem_cons, List.not_mem_nil, or_false] at hr ⊢; tauto
  simp only [List.mem_cons, List.not_mem_nil, or_false] at hr'
  rcases hr' with rfl | rfl | rfl
  · norm_num
  · norm_num
  · exact prime_41183

theorem prime_28491989 : Nat.Prime 28491989 := by
  refine pratt 28491989 2 [2, 2, 7, 443, 2297] ?_ (by decide +kernel) (by decide +kernel) (by decide +kernel)
  intro r hr
  have hr' : r ∈ ([2, 7, 443, 2297] : List ℕ) := by
    simp only [List.mem_cons, List.not_mem_nil, or_false] at hr ⊢; tauto
  simp only [List.mem_cons, List.not_mem_nil, or_false] at hr'
  rcases hr' with rfl | rfl | rfl | rfl
  · norm_num
  · norm_num
  · norm_num
  · norm_num

theorem prime_65017811 : Nat.Prime 65017811 := by
  refine pratt 65017811 2 [2, 5, 11, 13, 19, 2393] ?_ (by decide +kernel) (by decide +kernel) (by decide +kernel)
  intro r hr
  have hr' : r ∈ ([2, 5, 11, 13, 19, 2393] : List ℕ) := by
    simp only [List.mem_cons, List.not_mem_nil, or_false] at hr ⊢; tauto
  simp only [List.mem_cons, List.not_mem_nil, or_false] at hr'
  rcases hr' with rfl | rfl | rfl | rfl | rfl | rfl
  · norm_num
  · norm_num
  · norm_num
  · norm_num
  · norm_num
  · norm_num

theorem prime_390106867 : Nat.Prime 390106867 := by
  refine pratt 390106867 3 [2, 3, 65017811] ?_ (by decide +kernel) (by decide +kernel) (by decide +kernel)
  intro r hr
  have hr' : r ∈ ([2, 3, 65017811] : List ℕ) := by
    simp only [List.mem_cons, List.not_mem_nil, or_false] at hr ⊢; tauto
  simp only [List.mem_cons, List.not_mem_nil, or_false] at hr'
  rcases hr' with rfl | rfl | rfl
  · norm_num
  · norm_num
  · exact prime_65017811

theorem prime_53834747647 : Nat.Prime 53834747647 := by
  refine pratt 53834747647 3 [2, 3, 23, 390106867] ?_ (by decide +kernel) (by decide +kernel) (by decide +kernel)
  intro r hr
  have hr' : r ∈ ([2, 3, 23, 390106867] : List ℕ) := by
    simp only [List.mem_cons, List.not_mem_nil, or_false] at hr ⊢; tauto
  simp only [List.mem_cons, List.not_mem_nil, or_false] at hr'
  rcases hr' with rfl | rfl | rfl | rfl
  · norm_num
  · norm_num
  · norm_num
  · exact prime_390106867

theorem prime_13408501 : Nat.Prime 13408501 := by
  refine pratt 13408501 2 [2, 2, 3, 5, 5, 5, 7, 1277] ?_ (by decide +kernel) (by decide +kernel) (by decide +kernel)
  intro r hr
  have hr' : r ∈ ([2, 3, 5, 7, 1277] : List ℕ) := by
    simp only [List.mem_cons, List.not_mem_nil, or_false] at hr ⊢; tauto
  simp only [List.mem_cons, List.not_mem_nil, or_false] at hr'
  rcases hr' with rfl | rfl | rfl | rfl | rfl
  · norm_num
  · norm_num
  · norm_num
  · norm_num
  · norm_num

theorem prime_141900164620995541861 : Nat.Prime 141900164620995541861 := by
  refine pratt 141900164620995541861 2 [2, 2, 3, 3, 5, 11, 61, 71, 461, 2677, 13408501] ?_ (by decide +kernel) (by decide +kernel) (by decide +kernel)
  intro r hr
  have hr' : r ∈ ([2, 3, 5, 11, 61, 71, 461, 2677, 13408501] : List ℕ) := by
    simp only [List.mem_cons, List.not_mem_nil, or_false] at hr ⊢; tauto
  simp only [List.mem_cons, List.not_mem_nil, or_false] at hr'
  rcases hr' with rfl | rfl | rfl | rfl | rfl | rfl | rfl | rfl | rfl
  · norm_num
  · norm_num
  · norm_num
  · norm_num
  · norm_num
  · norm_num
  · norm_num
  · norm_num
  · exact prime_13408501

theorem prime_22136425680875304530317 : Nat.Prime 22136425680875304530317 := by
  refine pratt 22136425680875304530317 6 [2, 2, 3, 13, 141900164620995541861] ?_ (by decide +kernel) (by decide +kernel) (by decide +kernel)
  intro r hr
  have hr' : r ∈ ([2, 3, 13, 141900164620995541861] : List ℕ) := by
    simp only [List.mem_cons, List.not_mem_nil, or_false] at hr ⊢; tauto
  simp only [List.mem_cons, List.not_mem_nil, or_false] at hr'
  rcases hr' with rfl | rfl | rfl | rfl
  · norm_num
  · norm_num
  · norm_num
  · exact prime_141900164620995541861

theorem prime_354182810894004872485073 : Nat.Prime 354182810894004872485073 := by
  refine pratt 354182810894004872485073 3 [2, 2, 2, 2, 22136425680875304530317] ?_ (by decide +kernel) (by decide +kernel) (by decide +kernel)
  intro r hr
  have hr' : r ∈ ([2, 22136425680875304530317] : List ℕ) := by
    simp only [List.mem_cons, List.not_mem_nil, or_false] at hr ⊢; tauto
  simp only [List.mem_cons, List.not_mem_nil, or_false] at hr'
  rcases hr' with rfl | rfl
  · norm_num
  · exact prime_22136425680875304530317

theorem prime_2955369790000036875180183355219370645532736961 : Nat.Prime 2955369790000036875180183355219370645532736961 := by
  refine pratt 2955369790000036875180183355219370645532736961 12 [2, 2, 2, 2, 2, 2, 5, 17, 28491989, 53834747647, 354182810894004872485073] ?_ (by decide +kernel) (by decide +kernel) (by decide +kernel)
  intro r hr
  have hr' : r ∈ ([2, 5, 17, 28491989, 53834747647, 354182810894004872485073] : List ℕ) := by
    simp only [List.mem_cons, List.not_mem_nil, or_false] at hr ⊢; tauto
  simp only [List.mem_cons, List.not_mem_nil, or_false] at hr'
  rcases hr' with rfl | rfl | rfl | rfl | rfl | rfl
  · norm_num
  · norm_num
  · norm_num
  · exact prime_28491989
  · exact prime_53834747647
  · exact prime_354182810894004872485073

theorem prime_modQ : Nat.Prime 41779350816691014953522156191564118733065404123040873871217559960624522330113 := by
  refine pratt 41779350816691014953522156191564118733065404123040873871217559960624522330113 5 [2, 2, 2, 2, 2, 2, 2, 2, 2, 2, 2, 2, 2, 2, 2, 2, 2, 2, 2, 2, 2, 2, 2, 2, 2, 2, 2, 2, 2, 2, 2, 2, 3, 3, 59, 197, 1093, 4598831, 6259817, 2955369790000036875180183355219370645532736961] ?_ (by decide +kernel) (by decide +kernel) (by decide +kernel)
  intro r hr
  have hr' : r ∈ ([2, 3, 59, 197, 1093, 4598831, 6259817, 2955369790000036875180183355219370645532736961] : List ℕ) := by
    simp only [List.mem_cons, List.not_mem_nil, or_false] at hr ⊢; tauto
  simp only [List.mem_cons, List.not_mem_nil, or_false] at hr'
  rcases hr' with rfl | rfl | rfl | rfl | rfl | rfl | rfl | rfl
  · norm_num
  · norm_num
  · norm_num
  · norm_num
  · norm_num
  · exact prime_4598831
  · exact prime_6259817
  · exact prime_2955369790000036875180183355219370645532736961

end Halo
