import json
L=[]
def m(prop,file,d,old,new,claim,**k):
    L.append(dict(id='m11-%02d'%(len(L)+1),prop=prop,file='Verif/'+file,**{'def':d},old=old,new=new,claim=claim,**k))
F='Models/Catalogue.lean'
m('C148',F,'continuum','let c ← qdiv (p "alpha" - 2) (p "Ep")','let c ← qdiv (2 - p "alpha") (p "Ep")','exponent of the Comptonised model')
m('C148',F,'continuum','let x ← qdiv (-e) (p "Ec")\n    let y ← qpow e (-p "alpha")','let x ← qdiv (-e) (p "Ec")\n    let y ← qpow e (p "alpha")','sign of the index of the cut-off power law')
m('C148',F,'continuum','(2 * p "sigma" ^ 2)','(p "sigma" ^ 2)','width of the Gaussian')
m('C148',F,'continuum','let y ← qdiv (exp (-x)) (sqrt (2 * π) * p "sigma")','let y ← qdiv (exp (-x)) (sqrt (2 * π))','Gaussian not normalised')
m('C148',F,'continuum','let x ← qdiv (1 - e) (p "kT")','let x ← qdiv (-e) (p "kT")','thermal bremsstrahlung normalised elsewhere')
m('C148',F,'continuum','let y ← qpow x (1 / 3)','let y ← qpow x 3','synchrotron exponent')
m('C148',F,'continuum','let y ← qpow x 3','let y ← qpow x (-3)','edge exponent')
m('C148',F,'continuum','let x ← qdiv (-p "Ec") e','let x ← qdiv (-e) (p "Ec")','exponential absorption inverted')
m('C148',F,'continuum','exp (-0.5 * x ^ 2)','exp (-x ^ 2)','width of the absorption line')
m('C148',F,'continuum','let x ← qdiv (p "Ec" - e) (p "Ef")','let x ← qdiv (p "Ec" - e) (p "Ec")','e-folding energy ignored')
m('C148',F,'continuum','8.0525 * p "K" * e','8.0525 * p "K"','black body short of a factor energy')
m('C148',F,'continuum','let tmp := 1.0344e-3 * p "K" * e','let tmp := 1.0344 * p "K" * e','black body normalisation')
m('C148',F,'continuum','qdiv (p "K" * 2) (1 + y)','qdiv (p "K") (1 + y)','bent power law normalisation')
m('C148',F,'bandTail','K * exp (alpha * l - x)','K * exp (beta * l - x)','low-energy index of the Band function')
m('C148',F,'bandTail','if e < Ebreak then do','if Ebreak < e then do','Band branches swapped')
m('C148',F,'continuum','let Ec ← qdiv (p "Ep") (2 + p "alpha")','let Ec ← qdiv (p "Ep") (p "alpha")','peak energy of the Band function')
m('C148',F,'powBin','let x ← qpow a (1 - alpha)\n    let y ← qpow b (1 - alpha)\n    let u','let x ← qpow b (1 - alpha)\n    let y ← qpow a (1 - alpha)\n    let u','power law integral reversed')
m('C148',F,'powBin','    some (y - x)\n','    some (x - y)\n','logarithmic integral reversed')
m('C148',F,'binValue','let f ← powBin (p "alpha" - 1) o.emin o.emax','let f ← powBin (p "alpha") o.emin o.emax','energy flux taken for photon flux')
m('C148',F,'binValue','(f * keVToErg)','f','keV for erg')
m('C148',F,'binValue','let f ← powBin (p "alpha") o.emin o.emax','let f ← powBin (p "alpha") o.emin o.emin','flux band empty')
m('C148',F,'binValue','qdiv (c * y - c * x) (b - a)','some (c * y - c * x)','multiplicative value not an average')
m('C148',F,'binValue','let x ← qdiv (2 * (a - p "El")) (p "sigma")','let x ← qdiv (a - p "El") (p "sigma")','width of the Lorentz line')
m('C148',F,'binValue','| .constant, _, _ => some (p "f")','| .constant, a, b => some (p "f" * (b - a))','constant factor integrated')
m('C148',F,'binValue','if a ≤ p "Eb" then','if p "Eb" ≤ a then','broken power law branches swapped')
m('C148',F,'quadBin','0.5 * (a + b)','0.5 * (b - a)','midpoint')
m('C148',F,'quadBin','(x + 4 * m + y)','(x + 2 * m + y)','Simpson weights')
m('C148',F,'continuum','if e ≥ p "Ec" then some (1 + p "A" * exp (-p "f" * e)) else some 1','if e ≤ p "Ec" then some (1 + p "A" * exp (-p "f" * e)) else some 1','side of the step')
m('C148',F,'continuum.photon','exp (-p "nH" * exp','exp (p "nH" * exp','photon absorption amplifies')
m('C133',F,'ConvCls.config','| .vmShift => [⟨"v", 0, -1e4, 1e4⟩]','| .vmShift => [⟨"v", 0, -1e4, 1e6⟩]','velocity beyond that of light allowed')
m('C148',F,'Cls.config','| .blackbody => [⟨"kT", 3, 1e-4, 200⟩','| .blackbody => [⟨"kT", 300, 1e-4, 200⟩','default outside its bounds')
F='Plot/QuantRes.lean'
m('C113',F,'quantFrom','!random','random','seed ignored')
F='Grouping/Float.lean'
m('C144',F,'Impl.minLoop','if n ≤ F.rnd (gc + d) then','if n < F.rnd (gc + d) then','a group with exactly the minimum is not closed')
m('C144',F,'Impl.minLoop','F.rnd (gc + d) < n ∧ 1 < idx.length','F.rnd (gc + d) ≤ n ∧ 1 < idx.length','a last group with exactly the minimum is merged')
m('C144',F,'Impl.minLoop','F.minLoop n (d\' :: r) (i + 1) 0 ((i + 1) :: idx)','F.minLoop n (d\' :: r) (i + 1) d ((i + 1) :: idx)','counts carried over')
m('C144',F,'Impl.groupMin','fun x => decide (n ≤ x)','fun x => decide (n < x)','success not reported')
m('C144',F,'Impl.optMinExtend','F.rnd (n - cts)','n','counts of the group forgotten')
m('C144',F,'Impl.optMinExtend','if cts < n then','if cts ≤ n then','group extended without need')
m('C144',F,'Impl.groupOpt','fun x => decide (x < n)','fun x => decide (x ≤ n)','failure reported for a success')
m('C145',F,'Impl.groupCounts','F.rnd (q * c)','F.rnd c','quality ignored')
m('C145',F,'Impl.reduceat','F.sum a ((xs.take b).drop a)','F.sum a ((xs.take b).drop (a + 1))','first channel of a group left out')
m('C145',F,'Impl.reduceat','[F.sum a (xs.drop a)]','[F.sum a ((xs.drop a).dropLast)]','last channel left out')
F='Infer/FloatStat.lean'
m('C146',F,'wback','if s ≤ rnd (rnd (a / rnd (a + 1)) * nOn)','if s ≤ rnd (a * nOn)','profile background negative')
m('C146',F,'wback','if nOn = 0 then rnd (nOff / rnd (1 + a))','if nOn = 0 then rnd (-nOff / rnd (1 + a))','negative background')
m('C146',F,'wback','rnd (rnd (c + d) / rnd (rnd (2 * a) * rnd (a + 1)))','rnd (rnd (c - d) / rnd (rnd (2 * a) * rnd (a + 1)))','wrong root')
m('C146',F,'pgback','else e) else 0','else e) else e','negative background')
m('C146',F,'pgback','if 0 ≤ e ∨ 0 ≤ f','if True','negative background')
m('C146',F,'pgback','rnd (rnd (c + d) / rnd (2 * a))','rnd (rnd (c - d) / rnd (2 * a))','wrong root')
m('C146',F,'wt','rnd (a + 1)) * nOff) * s)','rnd (a - 1)) * nOff) * s)','negative discriminant')
m('C146',F,'onRate','s + rnd (a * b)','s - rnd (a * b)','background subtracted')
F='Infer/FloatFold.lean'
m('C147',F,'counts','min (max (rnd (rnd (p.value rnd * area) * exposure)) (rnd 1e-30)) 1e15','max (rnd (rnd (p.value rnd * area) * exposure)) (rnd 1e-30)','not clipped above')
m('C147',F,'counts','(rnd 1e-30)','(rnd 1e-20)','clipped elsewhere')
m('C147',F,'counts','rnd (rnd (p.value rnd * area) * exposure)','rnd (rnd (p.value rnd / area) * exposure)','area scale divided')
m('C147',F,'counts','rnd (rnd (p.value rnd * area) * exposure)','rnd (p.value rnd * exposure)','area scale ignored')
m('C147',F,'Prog.value','rnd (l.value rnd + r.value rnd)','rnd (l.value rnd - r.value rnd)','difference for a sum')
F='Infer/FloatPoisson.lean'
m('C149',F,'xlogyF','rnd (v * lg x)','rnd (lg x)','count forgotten')
m('C149',F,'gofF','xlogyF rnd lg v v - v','xlogyF rnd lg v v','goodness-of-fit constant')
m('C149',F,'poissonF','rnd (rnd (xlogyF rnd lg v rate - rate) - gofF rnd lg v)','rnd (xlogyF rnd lg v rate - rate)','goodness-of-fit constant dropped')
m('C149',F,'poissonF','min (rnd (rnd (xlogyF rnd lg v rate - rate) - gofF rnd lg v)) 0','rnd (rnd (xlogyF rnd lg v rate - rate) - gofF rnd lg v)','statistic may be negative')
m('C149',F,'poissonF','if 0 < v then rnd (-rate + rnd (xlogyF rnd lg v rate - gofF rnd lg v)) else -rate','if 0 < v then rnd (-rate + rnd (xlogyF rnd lg v rate - gofF rnd lg v)) else 0','empty channels ignored')
m('C149',F,'poissonF','rnd (-rate + rnd (xlogyF','rnd (rate + rnd (xlogyF','sign of the rate')
m('C149',F,'loglikeF','(List.range d.size)','(List.range (d.size - 1))','last channel forgotten')
m('C149',F,'devianceF','-2 * F.sum','2 * F.sum','sign of the statistic')
m('C149',F,'devianceF','-2 * F.sum','-1 * F.sum','factor two')
json.dump(L,open('/tmp/mut/m11.json','w'),indent=1,ensure_ascii=False)
print(len(L))
