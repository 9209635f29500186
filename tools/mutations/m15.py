import json
L=[]
def m(prop,file,d,old,new,claim,**k):
    L.append(dict(id='m15-%02d'%(len(L)+1),prop=prop,file='Verif/'+file,**{'def':d},old=old,new=new,claim=claim,**k))
F='Grouping/FloatOptsig.lean'
D='Impl.optNormalExtend'
m('C158',F,D,'let cts := F.sum i ((counts.take (j + 1)).drop i)','let cts := F.sum i ((counts.take j).drop i)','last channel of the optimal bin left out of the counts')
m('C158',F,D,'F.sum i (((errors.take (j + 1)).drop i)','F.sum i (((errors.take (j + 1)).drop (i + 1))','first channel left out of the error')
m('C158',F,D,'(((errors.take (j + 1)).drop i).map fun e => F.rnd (e * e))','((errors.take (j + 1)).drop i)','errors not squared')
m('C158',F,D,'let err := F.rnd (Real.sqrt (F.sum','let err := F.rnd ((F.sum','variance for the error')
m('C158',F,D,'F.rnd (cts - F.rnd (sig * err)) < 0 ∨ err = 0','F.rnd (cts - F.rnd (sig * err)) < 0','bins without variance not extended')
m('C158',F,D,'F.rnd (cts - F.rnd (sig * err)) < 0 ∨ err = 0','F.rnd (cts - F.rnd (sig * err)) ≤ 0 ∨ err = 0','bins at the threshold extended')
m('C158',F,D,'F.rnd (cts - F.rnd (sig * err)) < 0 ∨ err = 0','F.rnd (cts - err) < 0 ∨ err = 0','threshold dropped')
m('C158',F,D,'(counts.drop (j + 1))).map fun c => F.rnd (cts + c)','(counts.drop (j + 1))).map fun c => c','counts of the optimal bin forgotten')
m('C158',F,D,'(counts.drop (j + 1))).map fun c','(counts.drop j)).map fun c','last channel counted twice')
m('C158',F,D,'F.rnd (err + F.rnd (Real.sqrt v))','F.rnd (Real.sqrt v)','error of the optimal bin forgotten')
m('C158',F,D,'F.rnd (err + F.rnd (Real.sqrt v))','F.rnd (Real.sqrt (F.rnd (F.rnd (err * err) + v)))','quadrature (what the property of C06 asks for, not what the code does)')
m('C158',F,D,'((errors.drop (j + 1)).map fun e => F.rnd (e * e))','(errors.drop (j + 1))','errors beyond the bin not squared')
m('C158',F,D,'0 ≤ F.rnd (p.1 - F.rnd (sig * p.2)) ∧ 0 < p.2','0 ≤ F.rnd (p.1 - F.rnd (sig * p.2))','extended bins without variance accepted')
m('C158',F,D,'0 ≤ F.rnd (p.1 - F.rnd (sig * p.2)) ∧ 0 < p.2','0 < F.rnd (p.1 - F.rnd (sig * p.2)) ∧ 0 < p.2','extended bins at the threshold refused (differs only within rounding of it)')
m('C158',F,D,'0 ≤ F.rnd (p.1 - F.rnd (sig * p.2)) ∧ 0 < p.2','0 ≤ F.rnd (p.1 - p.2) ∧ 0 < p.2','threshold dropped in the extension')
m('C158',F,D,'j + (m + 1)','j + m','one channel short')
m('C158',F,D,'else some j\n','else some i\n','optimal width ignored')
D='Impl.groupOptsigNormal'
m('C158',F,D,'bint.length = counts.length ∧ counts.length = errors.length','bint.length = counts.length','errors of another length accepted')
m('C158',F,D,'else if sig ≤ 0 then','else if sig < 0 then','threshold of zero accepted (not among the thresholds of the theorem)')
m('C158',F,D,'bint bint.length bint.length 0 []','bint bint.length bint.length 1 []','first channel skipped')
m('C158',F,D,'F.normalSuccess counts errors sig idx','F.normalSuccess counts errors 0 idx','success tested against zero')
json.dump(L,open('/tmp/mut/m15.json','w'))
bad=[(x['id'],x['old'],open('/verif/lean/'+x['file']).read().count(x['old'])) for x in L]
print(len(L),[b for b in bad if b[2]!=1])
