import json
L=[]
def m(prop,file,d,old,new,claim,**k):
    L.append(dict(id='m13-%02d'%(len(L)+1),prop=prop,file='Verif/'+file,**{'def':d},old=old,new=new,claim=claim,**k))
F='Infer/FloatChi.lean'
m('C152',F,'normalF','rnd (-1 / 2 * rnd (rnd (v - loc) / scale)) * rnd','rnd (-1 * rnd (rnd (v - loc) / scale)) * rnd','factor one half dropped')
m('C152',F,'normalF','rnd (rnd (v - loc) / scale))\n','rnd (rnd (v + loc) / scale))\n','sum instead of difference in one factor')
m('C152',F,'normalF','rnd (-1 / 2 * rnd (rnd (v - loc) / scale)) *','rnd (-1 / 2 * rnd (rnd (v - loc) * scale)) *','product with the uncertainty')
m('C152',F,'chiDevianceF','(nth d.netCounts j) (counts','(nth d.specCounts j) (counts','gross instead of net counts')
m('C152',F,'chiDevianceF','(nth d.netErrors j)','(nth d.specErrors j)','gross uncertainties')
m('C152',F,'chiDevianceF','F.rnd (-2 * F.sum 0 ((List.range d.size).map fun j : ℕ => normalF','F.rnd (-1 * F.sum 0 ((List.range d.size).map fun j : ℕ => normalF','factor two dropped')
m('C152',F,'chiDevianceF','(List.range d.size).map fun j : ℕ => normalF','(List.range (d.size - 1)).map fun j : ℕ => normalF','last channel missed')
m('C152',F,'knownCounts','+ rnd (ratio * back)','+ back','ratio of the regions dropped')
m('C152',F,'knownCounts','rnd (rnd (p.value rnd * area) * exposure) +','rnd (p.value rnd * area) +','exposure dropped')
m('C152',F,'knownCounts','(rnd 1e-30)) 1e15','(rnd 1e-30)) 1e10','upper limit lowered')
m('C152',F,'knownCounts','(rnd 1e-30)) 1e15','0) 1e15','lower limit dropped')
m('C152',F,'pDevianceF','(nth b.ratio j) (nth b.counts j)','(nth b.counts j) (nth b.ratio j)','arguments swapped (the product is the same)')
m('C152',F,'pDevianceF','d.exposure (nth b.ratio j) (nth b.counts j)','d.exposure (nth b.ratio j) (nth b.errors j)','background uncertainty for the background')
F='Infer/FloatStat.lean'
m('C153',F,'wc','rnd (a * rnd (nOn + nOff))','rnd (a * nOn)','background counts dropped from the linear coefficient')
m('C153',F,'wc','rnd (rnd (a + 1) * s)','rnd (a * s)','one dropped')
m('C153',F,'wt','rnd (4 * a) * rnd (a + 1)','rnd (2 * a) * rnd (a + 1)','factor four halved')
m('C153',F,'wt','* nOff) * s)','* nOff) * a)','ratio for source counts')
m('C153',F,'root','rnd (rnd (c * c) + t)','rnd (rnd (c * c) - t)','sign in the discriminant')
m('C153',F,'wback','if nOn = 0 then rnd (nOff / rnd (1 + a))','if nOn = 0 then nOff','division dropped')
m('C153',F,'wback','s ≤ rnd (rnd (a / rnd (a + 1)) * nOn)','rnd (rnd (a / rnd (a + 1)) * nOn) ≤ s','condition reversed')
m('C153',F,'wback','- rnd (s / a)) else 0','- rnd (s / a)) else s','no cut off at zero')
m('C153',F,'wback','rnd (rnd (c + d) / rnd (rnd (2 * a) * rnd (a + 1)))','rnd (rnd (c - d) / rnd (rnd (2 * a) * rnd (a + 1)))','other root')
m('C153',F,'onRate','rnd (s + rnd (a * b))','rnd (s + b)','ratio dropped in the expected counts')
F='Infer/FloatW.lean'
m('C153',F,'wLoglikeF','poissonF rnd lg sparse m (wback rnd s n m a)','poissonF rnd lg sparse m (wback rnd s m n a)','counts swapped in one profile background')
m('C153',F,'wLoglikeF',' + poissonF rnd lg sparse m (wback rnd s n m a))',')','background term dropped')
m('C153',F,'wLoglikeF','poissonF rnd lg sparse n (onRate rnd s a (wback rnd s n m a))','poissonF rnd lg sparse n s','background left out of the source region')
m('C153',F,'wDevianceF','F.rnd (-2 *','F.rnd (2 *','sign')
m('C153',F,'wDevianceF','(nth d.specCounts j) (nth b.counts j)','(nth b.counts j) (nth d.specCounts j)','regions swapped')
F='Infer/FloatStat.lean'
m('C155',F,'pgback','let e := rnd (bEst - rnd (a * variance))','let e := rnd (bEst - variance)','ratio dropped in e')
m('C155',F,'pgback','rnd (bErr * bErr)','bErr','variance replaced by the uncertainty')
m('C155',F,'pgback','rnd (rnd (a * variance) * n) + rnd (e * s)','rnd (rnd (a * variance) * n) - rnd (e * s)','sign in f')
m('C155',F,'pgback','let c := rnd (rnd (a * e) - s)','let c := rnd (rnd (a * e) + s)','sign in c')
m('C155',F,'pgback','rnd (rnd (4 * a) * f)','rnd (4 * f)','ratio dropped in the discriminant')
m('C155',F,'pgback','if 0 ≤ e ∨ 0 ≤ f','if 0 ≤ e ∧ 0 ≤ f','both signs required')
m('C155',F,'pgback','if 0 ≤ e ∨ 0 ≤ f','if 0 ≤ f','only the second sign (equivalent up to underflow)')
m('C155',F,'pgback','if 0 < n then rnd (rnd (c + d) / rnd (2 * a)) else e','if 0 ≤ n then rnd (rnd (c + d) / rnd (2 * a)) else e','no counts treated by the root formula')
m('C155',F,'pgback','rnd (rnd (c + d) / rnd (2 * a)) else e','rnd (rnd (c + d) / 2) else e','division by the ratio dropped')
m('C155',F,'pgback','else e) else 0','else e) else e','not cut off at zero')
m('C155',F,'onRate','rnd (s + rnd (a * b))','rnd (s - rnd (a * b))','background subtracted')
F='Infer/FloatPg.lean'
m('C155',F,'pgLoglikeF','normalF rnd bEst (pgback rnd s n bEst bErr a) bErr','normalF rnd bEst (pgback rnd s n bEst bErr a) 1','uncertainty dropped in the Gaussian term')
m('C155',F,'pgLoglikeF',' + normalF rnd bEst (pgback rnd s n bEst bErr a) bErr)',')','Gaussian term dropped')
m('C155',F,'pgLoglikeF','normalF rnd bEst (pgback','poissonF rnd lg sparse bEst (pgback','Poisson term for the background')
m('C155',F,'pgLoglikeF','poissonF rnd lg sparse n (onRate rnd s a (pgback rnd s n bEst bErr a))','poissonF rnd lg sparse n (onRate rnd s 1 (pgback rnd s n bEst bErr a))','ratio one in the source region')
m('C155',F,'pgDevianceF','(nth b.counts j) (nth b.errors j) (nth b.ratio j)','(nth b.errors j) (nth b.counts j) (nth b.ratio j)','estimate and uncertainty swapped')
m('C155',F,'pgDevianceF','(List.range d.size).map','(List.range d.size).tail.map','first channel missed')
m('C155',F,'pgDevianceF','F.rnd (-2 *','F.rnd (-1 *','factor two dropped')
F='Grouping/FloatGv.lean'
m('C154',F,'gvRadF','rnd (rnd (2 * b) * s2)','rnd (b * s2)','factor two dropped')
m('C154',F,'gvRadF','+ rnd (rnd (4 * n) * s2)','- rnd (rnd (4 * n) * s2)','sign of the counts')
m('C154',F,'gvRadF','+ rnd (s2 * s2)','+ s2','fourth power of the uncertainty')
m('C154',F,'gvBackF','rnd (rnd (b - s2) +','rnd (rnd (b + s2) +','sign of the variance')
m('C154',F,'gvBackF','1 / 2 * rnd','1 * rnd','half dropped')
m('C154',F,'gvTermsF','rnd (n / b0)','rnd (b0 / n)','ratio inverted')
m('C154',F,'gvTermsF','/ rnd (2 * s2)','/ s2','factor two dropped')
m('C154',F,'gvTermsF','+ rnd (b0 - n)','+ rnd (n - b0)','sign of the excess')
m('C154',F,'gvSign','if b ≤ n then 1 else -1','if n ≤ b then 1 else -1','sign reversed')
m('C154',F,'gvInf','if b ≤ n then ⊤ else ⊥','if b ≤ n then ⊥ else ⊤','sign of the infinity')
m('C154',F,'gvF','else if s2 = 0 then (if rnd (rnd (b\' - b0) * rnd (b\' - b0)) = 0 then none else some (gvInf n b\'))','else if s2 = 0 then some (gvInf n b\')','a repair (0/0): C154_zero_refuted must fail')
m('C154',F,'gvF','else if gvTermsF rnd lg n b\' s2 b0 < 0 then none','else if gvTermsF rnd lg n b\' s2 b0 < 0 then some 0','a repair: C154_refuted must fail')
m('C154',F,'gvF','if gvRadF rnd n b\' s2 < 0 then none','if gvRadF rnd n b\' s2 < 0 then some 0','a repair: C154_deficit_refuted must fail')
m('C154',F,'gvF','else if 0 < n ∧ b0 = 0 then some (gvInf n b\')','else if 0 < n ∧ b0 = 0 then none','NaN instead of infinity')
m('C154',F,'gvF','let s2 := rnd (rnd (s * a) * rnd (s * a))','let s2 := rnd (s * s)','ratio dropped in the variance')
m('C154',F,'reachesE','| none => false\n  | some s => decide ((sig : EReal) ≤ s)','| none => true\n  | some s => decide ((sig : EReal) ≤ s)','NaN counts as reached')
m('C154',F,'fallsE','decide (s < (sig : EReal))','decide (s ≤ (sig : EReal))','boundary of the last group')
m('C154',F,'greedyLoopE','∧ 1 < idx.length then idx.tail else idx','∧ 1 < idx.length then idx else idx','last group not merged')
m('C154',F,'greedyLoopE','(i + 1) (i + 1) ((i + 1) :: idx)','(i + 1) start ((i + 1) :: idx)','start not moved')
m('C154',F,'groupSigGvF','.all fun p','.any fun p','one group suffices for success')
m('C154',F,'groupSigGvF','(Elisa.reduceat (s.map fun x => x * x) idx)','(Elisa.reduceat s idx)','uncertainties added instead of squares in the success test')
m('C154',F,'groupSigGvF','(rnd (Real.sqrt p.2.2.1))','(rnd p.2.2.1)','root dropped in the success test')
m('C154',F,'groupSigGvF','(prefixSum (s.map fun x => x * x)) i j','(prefixSum s) i j','uncertainties added instead of squares')
json.dump(L,open('/tmp/mut/m13.json','w'),ensure_ascii=False,indent=0)
bad=[(x['id'],x['old'],open('/verif/lean/'+x['file']).read().count(x['old'])) for x in L]
print(len(L),[b for b in bad if b[2]!=1])
