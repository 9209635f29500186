import json
L=[]
def m(prop,file,d,old,new,claim,**k):
    L.append(dict(id='m12-%02d'%(len(L)+1),prop=prop,file='Verif/'+file,**{'def':d},old=old,new=new,claim=claim,**k))
F='Models/FloatPower.lean'
m('C150',F,'edgeF','rnd (pw e q / q)','rnd (pw e q)','division by the exponent dropped')
m('C150',F,'edgeF','rnd (pw e q / q)','rnd (pw q e / q)','arguments of the power swapped')
m('C150',F,'edgeF','rnd (pw e q / q)','pw e q / q','quotient not rounded')
m('C150',F,'powBinF','(rnd (1 - alpha)) b - edgeF rnd pw (rnd (1 - alpha)) a','(rnd (1 - alpha)) a - edgeF rnd pw (rnd (1 - alpha)) b','edges swapped')
m('C150',F,'powBinF','if alpha ≠ 1 then','if alpha = 1 then','branches swapped')
m('C150',F,'powBinF','rnd (lg b - lg a)','rnd (lg a - lg b)','logarithms swapped')
m('C150',F,'powBinF','rnd (lg b - lg a)','rnd (lg b)','lower edge dropped')
m('C150',F,'powBinF','edgeF rnd pw (rnd (1 - alpha)) b -','edgeF rnd pw (rnd (-alpha)) b -','exponent at the upper edge')
m('C150',F,'powBinF','if alpha ≠ 1 then','if 2 ^ (-40 : ℤ) < |alpha - 1| then','near one treated as one (a repair: C150_refuted must fail)')
F='Grouping/FloatLima.lean'
m('C151',F,'onRatioF','rnd (1 + a) / a) * nOn','rnd (1 + a) * a) * nOn','division by the ratio turned into a product')
m('C151',F,'onRatioF','/ a) * nOn) / rnd (nOn + nOff)','/ a) * nOff) / rnd (nOn + nOff)','counts swapped in the first ratio')
m('C151',F,'onRatioF','/ a) * nOn) / rnd (nOn + nOff)','/ a) * nOn) / rnd (nOff)','total misses the source counts')
m('C151',F,'offRatioF','rnd (1 + a) * nOff','rnd (1 + a) * nOn','counts swapped in the second ratio')
m('C151',F,'offRatioF','rnd (rnd (rnd (1 + a) * nOff)','rnd (rnd (a * nOff)','one plus dropped')
m('C151',F,'limaTermsF','rnd (2 * rnd (','rnd (1 * rnd (','factor two dropped')
m('C151',F,'limaTermsF','xlogyF rnd lg nOff (offRatioF','xlogyF rnd lg nOn (offRatioF','wrong weight of the second logarithm')
m('C151',F,'limaTermsF','(if 0 < nOn then xlogyF rnd lg nOn (onRatioF rnd nOn nOff a) else 0) +','(if 0 < nOn then xlogyF rnd lg nOn (onRatioF rnd nOn nOff a) else 0) -','terms subtracted')
m('C151',F,'limaF','if rnd (a * nOff) ≤ nOn then 1 else -1','if rnd (a * nOff) ≤ nOn then -1 else 1','sign reversed')
m('C151',F,'limaF','if rnd (a * nOff) ≤ nOn then 1 else -1','if nOff ≤ nOn then 1 else -1','ratio missing in the sign')
m('C151',F,'limaF','* rnd (Real.sqrt (limaTermsF rnd lg nOn nOff a))','* rnd (limaTermsF rnd lg nOn nOff a)','square root dropped')
m('C151',F,'limaF','if limaTermsF rnd lg nOn nOff a < 0 then none','if limaTermsF rnd lg nOn nOff a < 0 then some 0','a repair: C151_refuted must fail')
m('C151',F,'reaches','decide (sig ≤ s)','decide (s ≤ sig)','comparison reversed')
m('C151',F,'reaches','| none => false\n  | some s => decide (sig ≤ s)','| none => true\n  | some s => decide (sig ≤ s)','NaN counts as reached')
m('C151',F,'falls','decide (s < sig)','decide (sig < s)','comparison reversed')
m('C151',F,'falls','| none => false\n  | some s => decide (s < sig)','| none => true\n  | some s => decide (s < sig)','a repair: C151_grouping_refuted must fail')
m('C151',F,'greedyLoopF','∧ 1 < idx.length then idx.tail else idx','∧ 1 < idx.length then idx else idx','last group not merged')
m('C151',F,'greedyLoopF','(i + 1) (i + 1) ((i + 1) :: idx)','(i + 1) start ((i + 1) :: idx)','start not moved')
m('C151',F,'greedyLoopF','else greedyLoopF s sig (left + 1) (i + 1) start idx','else greedyLoopF s sig (left + 1) (i + 1) (i + 1) idx','start moved without a group')
m('C151',F,'groupSigLimaF','(Elisa.reduceat off idx)','(Elisa.reduceat on idx)','background counts in the success test')
m('C151',F,'groupSigLimaF','.all\n      fun p => reaches','.any\n      fun p => reaches','one group suffices for success')
m('C151',F,'groupSigLimaF','(intervalSum (prefixSum off) a b) (ratio a b)','(intervalSum (prefixSum off) a b) (ratio b a)','interval reversed')
m('C151',F,'groupSigLimaF','else if sig ≤ 0 then','else if sig < 0 then','zero accepted (the sibling check is in C05; here sig is above one)')
json.dump(L,open('/tmp/mut/m12.json','w'),ensure_ascii=False,indent=0)
