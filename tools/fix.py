f='Verif/Proofs/CodeEnc.lean'
s=open(f).read()
s=s.replace('''    cases cont <;> simp <;> omega
  · simp only [if_true''','''    have e1 : sh / 64 = 0 := by omega
    have e2 : (32 + sh) / 64 = 0 := by omega
    have e3 : sh / 32 % 2 = 0 := by omega
    have e4 : (32 + sh) / 32 % 2 = 1 := by omega
    have e5 : sh % 32 = sh := by omega
    cases cont <;> simp [e1, e2, e3, e4, e5]
  · simp only [if_true''')
s=s.replace('''    cases cont <;> simp <;> omega

theorem encAcc_length_pos''','''    have e1 : sh / 64 = 0 := by omega
    have e2 : (32 + sh) / 64 = 0 := by omega
    have e3 : sh / 32 % 2 = 0 := by omega
    have e4 : (32 + sh) / 32 % 2 = 1 := by omega
    have e5 : sh % 32 = sh := by omega
    cases cont <;> simp [e1, e2, e3, e4, e5]

theorem encAcc_length_pos''')
s=s.replace("simp [encAcc, leBytes_length]; omega","simp [encAcc, leBytes_length]")
s=s.replace('''  rw [e, markEnd_append _ _ (by simp [leBytes_length])]
  unfold markEnd
''','''  have e' : encAcc a false = ([UInt8.ofNat a.var] ++ (if hasParam a.var then [UInt8.ofNat a.param] else []))
      ++ ([UInt8.ofNat a.shift] ++ leBytes 4 a.mask.toNat) := by simp [encAcc]
  rw [e, e', markEnd_append _ _ (by simp [leBytes_length])]
  generalize [UInt8.ofNat a.var] ++ (if hasParam a.var then [UInt8.ofNat a.param] else []) = pre
  unfold markEnd
''')
s=s.replace('''Option.map_some, clearBit _ h.shift]
  simp [encAcc]''','''Option.map_some, clearBit _ h.shift]''')
open(f,'w').write(s)
f='Verif/Props/Common.lean'
s=open(f).read()
s=s.replace("cases hb : v.testBit n <;> simp [Nat.testBit_two_pow]","cases hb : v.testBit n <;> simp")
s=s.replace("cases hb : v.testBit n <;> simp [hi, Nat.testBit_two_pow]","cases hb : v.testBit n <;> simp [hi]")
open(f,'w').write(s)
