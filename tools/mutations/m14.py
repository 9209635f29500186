import json
L=[]
def m(prop,file,d,old,new,claim,**k):
    L.append(dict(id='m14-%02d'%(len(L)+1),prop=prop,file='Verif/'+file,**{'def':d},old=old,new=new,claim=claim,**k))
F='Grouping/FloatNormal.lean'
m('C156',F,'Impl.excess','F.rnd (c - F.rnd (sig * F.rnd (Real.sqrt v)))','F.rnd (c - F.rnd (sig * v))','variance for the error')
m('C156',F,'Impl.excess','F.rnd (c - F.rnd (sig * F.rnd (Real.sqrt v)))','F.rnd (c - F.rnd (Real.sqrt v))','threshold dropped')
m('C156',F,'Impl.excess','F.rnd (c - F.rnd (sig * F.rnd (Real.sqrt v)))','F.rnd (F.rnd (sig * F.rnd (Real.sqrt v)) - c)','difference reversed')
m('C156',F,'Impl.normalLoop','< 0 ∨ F.rnd (gv + F.rnd (e * e)) = 0) ∧ 1 < idx.length','< 0) ∧ 1 < idx.length','last group without variance kept')
m('C156',F,'Impl.normalLoop','= 0) ∧ 1 < idx.length','= 0) ∧ 2 < idx.length','merging only from the third group on')
m('C156',F,'Impl.normalLoop',' ∧ 0 < F.rnd (gv + F.rnd (e * e))\n','\n','groups without variance closed')
m('C156',F,'Impl.normalLoop','(i + 1) 0 0 ((i + 1) :: idx)','(i + 1) 0 0 (i :: idx)','next group starts one channel early')
m('C156',F,'Impl.normalLoop','(i + 1) 0 0 ((i + 1) :: idx)','(i + 1) 0 (F.rnd (gv + F.rnd (e * e))) ((i + 1) :: idx)','variance not reset')
m('C156',F,'Impl.normalLoop','(i + 1) 0 0 ((i + 1) :: idx)','(i + 1) (F.rnd (gc + d)) 0 ((i + 1) :: idx)','counts not reset')
m('C156',F,'Impl.normalLoop','(i + 1) (F.rnd (gc + d)) (F.rnd (gv + F.rnd (e * e))) idx','(i + 1) (F.rnd (gc + d)) (F.rnd (gv + e)) idx','errors added without squaring')
m('C156',F,'Impl.normalLoop','    if 0 ≤ F.excess','    if 0 < F.excess','group at the threshold not closed')
m('C156',F,'Impl.normalSuccess','(error.map fun e => F.rnd (e * e))','error','errors not squared in the final test')
m('C156',F,'Impl.normalSuccess','.all fun p','.any fun p','one group enough for success')
m('C156',F,'Impl.normalSuccess','decide (0 ≤ F.excess sig p.1 p.2)','decide (0 < p.2)','only the variance tested')
m('C156',F,'Impl.groupSigNormal','count.length ≠ error.length','count.length < error.length','longer counts accepted')
m('C156',F,'Impl.groupSigNormal','sig ≤ 0','sig < 0','threshold of zero accepted')
m('C156',F,'Impl.groupSigNormal','[0]).reverse','[0])','starts of the groups in descending order')
F='Grouping/FloatGv.lean'
m('C154',F,'gvTermsF','rnd (2 * rnd','rnd (1 * rnd','factor two dropped')
m('C154',F,'gvTermsF','rnd (b0 - n)','rnd (n - b0)','sign of the difference')
m('C154',F,'gvTermsF','rnd (2 * s2)','s2','variance not doubled')
m('C154',F,'gvTermsF','xlogyF rnd lg n (rnd (n / b0))','xlogyF rnd lg n (rnd (b0 / n))','ratio inverted')
m('C154',F,'gvBackF','rnd (rnd (b - s2) + rnd','rnd (rnd (b + s2) + rnd','sign of the variance')
m('C154',F,'gvBackF','rnd (rnd (b - s2) + rnd','rnd (rnd (b - s2) - rnd','other root')
m('C154',F,'gvRadF','rnd (rnd (4 * n) * s2)','rnd (rnd (2 * n) * s2)','factor four halved')
m('C154',F,'gvRadF','rnd (2 * b) * s2','rnd (2 * b) * b','wrong factor in the radicand')
m('C154',F,'gvF','rnd (rnd (s * a) * rnd (s * a))','rnd (s * s)','ratio dropped in the variance')
m('C154',F,'gvF','let b\' := rnd (b * a)','let b\' := b','ratio dropped in the background')
m('C154',F,'gvSign','if b ≤ n then 1 else -1','1','deficits counted as excesses')
F='Grouping/FloatPrefix.lean'
m('C157',F,'Impl.prefixSum','0 :: F.cumsum values','F.cumsum values','leading zero dropped')
m('C157',F,'Impl.intervalSum','prefixes.getD stop 0 - prefixes.getD start 0','prefixes.getD stop 0','start not subtracted')
m('C157',F,'Impl.intervalSum','prefixes.getD stop 0 - prefixes.getD start 0','prefixes.getD (stop - 1) 0 - prefixes.getD start 0','last channel missed')
m('C157',F,'Impl.intervalSum','prefixes.getD stop 0 - prefixes.getD start 0','prefixes.getD start 0 - prefixes.getD stop 0','difference reversed')
m('C157',F,'Impl.scaleOf','F.rnd (counts / weightedInv)','F.rnd (weightedInv / counts)','mean inverted (the same for unit factors, and one over no counts)')
m('C157',F,'Impl.scaleOf','if nChan = 0 then 1','if nChan = 0 then 0','empty interval with factor zero')
m('C157',F,'Impl.scaleOf','if weightedInv ≠ 0 then','if nChan ≠ 0 then','fallback never taken')
m('C157',F,'Impl.scaleOf','if reciprocal = 0 then 1 else F.rnd (nChan / reciprocal)','nChan','fallback not divided')
m('C157',F,'Impl.ratio','d.specExp / d.backExp','d.backExp / d.specExp','exposures swapped')
m('C157',F,'Impl.ratio','/ F.scaleOf d.backBack start stop)','/ F.scaleOf d.specBack start stop)','source for background scale (the same for unit factors)')
m('C157',F,'Impl.gvSums','(s.map fun x => F.rnd (x * x))','s','errors not squared')
m('C157',F,'Impl.gvSums','(F.intervalSum (F.prefixSum n) start stop, F','(F.intervalSum (F.prefixSum n) 0 stop, F','counts of all channels before')
json.dump(L,open('/tmp/mut/m14.json','w'))
print(len(L))
bad=[(x['id'],x['old'],open('/verif/lean/'+x['file']).read().count(x['old'])) for x in L]
print(len(L),[b for b in bad if b[2]!=1])
